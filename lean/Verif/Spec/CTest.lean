/-
Specification vocabulary for the registered tests. Independent of the model.
-/
namespace Fidi.Spec

/-- The label, with or without a capital, stands somewhere in the text, and what follows it has the property. -/
def Labelled (label : String) (P : List Char → Prop) (text : List Char) : Prop :=
  ∃ pre c rest, text = pre ++ c :: (label.toList ++ rest) ∧ (c = 'C' ∨ c = 'c') ∧ P rest

/-- After any number of blanks there is one of the characters. -/
def BeginsWith (chars : List Char) (s : List Char) : Prop :=
  ∃ k c rest, s = List.replicate k ' ' ++ c :: rest ∧ c ∈ chars

/-- After any number of blanks there is a number that is at least spelled like 1 or 0.999. -/
def NearOne (s : List Char) : Prop :=
  ∃ k rest, s = List.replicate k ' ' ++ rest ∧ (['1'] <+: rest ∨ "0.999".toList <+: rest)

/-- The characters a check sum may begin with for a test of an upwind program to pass. -/
def accepted : List Char := ['1', '|', '0', '\\', '.', '9']

end Fidi.Spec
