import Verif.Lemmas.CTest

/-
Lemmas on interleaved streams: the characters of the text, streams written to in one piece, labels found by their `h`.
-/
namespace Fidi
open Spec CTest

theorem count_set (l : List Str) (i : Nat) (c d : Char) (s : Str) (h : l[i]? = some (c :: s)) :
    ((l.set i s).map (List.count d)).sum + (if c = d then 1 else 0) = (l.map (List.count d)).sum := by
  induction l generalizing i with
  | nil => simp at h
  | cons a l ih =>
    cases i with
    | zero =>
      rw [List.getElem?_cons_zero, Option.some_inj] at h
      subst h
      simp only [List.set_cons_zero, List.map_cons, List.sum_cons, List.count_cons, beq_iff_eq]
      omega
    | succ i =>
      rw [List.getElem?_cons_succ] at h
      have := ih i h
      simp only [List.set_cons_succ, List.map_cons, List.sum_cons]
      omega

/-- Nothing is lost or added. -/
theorem merge_count {streams : List Str} {text : Str} (h : Merge streams text) (d : Char) :
    text.count d = (streams.map (List.count d)).sum := by
  induction h with
  | done streams h =>
    rw [List.count_nil]
    symm
    apply List.sum_eq_zero
    intro x hx
    obtain ⟨s, hs, rfl⟩ := List.mem_map.1 hx
    rw [h s hs, List.count_nil]
  | next streams i c s text hi _ ih =>
    rw [List.count_cons, ih]
    simp only [beq_iff_eq]
    exact count_set streams i c d s hi

/-- A stream may be written to in one piece. -/
theorem merge_prefix {streams : List Str} {i : Nat} {p s text : Str} (hi : streams[i]? = some (p ++ s))
    (h : Merge (streams.set i s) text) : Merge streams (p ++ text) := by
  induction p generalizing streams with
  | nil =>
    rw [List.nil_append] at hi ⊢
    obtain ⟨hlt, hget⟩ := List.getElem?_eq_some_iff.1 hi
    rw [← hget, List.set_getElem_self] at h
    exact h
  | cons c p ih =>
    have hlt : i < streams.length := (List.getElem?_eq_some_iff.1 hi).1
    refine .next streams i c (p ++ s) (p ++ text) hi (ih ?_ ?_)
    · rw [List.getElem?_set_self hlt]
    · rw [List.set_set]
      exact h

/-- Two texts with a character that is in each only once. -/
theorem split_once {c : Char} {a b a' b' : List Char} (h : (a ++ c :: b).count c = 1) (e : a ++ c :: b = a' ++ c :: b') :
    a = a' ∧ b = b' := by
  simp only [List.count_append, List.count_cons_self] at h
  have h1 : c ∉ a := List.count_eq_zero.1 (by omega)
  have h2 : c ∉ b := List.count_eq_zero.1 (by omega)
  obtain ⟨e1, _, e2⟩ := (List.append_cons_inj_of_notMem h1 h2).1 e
  exact ⟨e1, e2⟩

/-- The label is there once: its `h` is the only one of the text. -/
theorem labelled_once_h {P : List Char → Prop} {pre rest : List Char} {c : Char} (hc : c = 'C' ∨ c = 'c')
    (h : (pre ++ c :: ("heck sum:".toList ++ rest)).count 'h' = 1) :
    Labelled "heck sum:" P (pre ++ c :: ("heck sum:".toList ++ rest)) ↔ P rest := by
  constructor
  · rintro ⟨pre', c', rest', e, hc', hP⟩
    have e' : (pre ++ [c]) ++ 'h' :: ("eck sum:".toList ++ rest) = (pre' ++ [c']) ++ 'h' :: ("eck sum:".toList ++ rest') := by
      simpa using e
    have h' : ((pre ++ [c]) ++ 'h' :: ("eck sum:".toList ++ rest)).count 'h' = 1 := by
      rw [← h]
      congr 1
      simp
    have := (split_once h' e').2
    rw [List.append_right_inj] at this
    rw [this]
    exact hP
  · intro h
    exact ⟨pre, c, rest, rfl, hc, h⟩

end Fidi
