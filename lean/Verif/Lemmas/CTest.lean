import Verif.Model.CTest
import Verif.Spec.CTest
import Verif.Lemmas.Mains

/-
Lemmas for the registered tests.
-/
namespace Fidi.CTest
open Spec

/-! ### Expressions -/

theorem find_iff (r : List Item) (text : Str) : find r text = true ↔ ∃ pre s, text = pre ++ s ∧ matchHere r s = true := by
  induction text with
  | nil =>
    unfold find
    constructor
    · intro h; exact ⟨[], [], rfl, h⟩
    · rintro ⟨pre, s, h, hm⟩
      obtain ⟨rfl, rfl⟩ := List.append_eq_nil_iff.1 h.symm
      exact hm
  | cons c text ih =>
    unfold find
    rw [Bool.or_eq_true, ih]
    constructor
    · rintro (h | ⟨pre, s, rfl, hm⟩)
      · exact ⟨[], _, rfl, h⟩
      · exact ⟨c :: pre, s, rfl, hm⟩
    · rintro ⟨pre, s, h, hm⟩
      cases pre with
      | nil => left; rw [show c :: text = s from h]; exact hm
      | cons d pre =>
        right
        injection h with _ h
        exact ⟨pre, s, h, hm⟩

theorem match_one (set : List Char) (r : List Item) (s : Str) :
    matchHere (.one set :: r) s = true ↔ ∃ c s', s = c :: s' ∧ c ∈ set ∧ matchHere r s' = true := by
  cases s with
  | nil => simp [matchHere]
  | cons c s => simp [matchHere]

theorem match_many (set : List Char) (r : List Item) (s : Str) :
    matchHere (.many set :: r) s = true ↔ ∃ p s', s = p ++ s' ∧ (∀ c ∈ p, c ∈ set) ∧ matchHere r s' = true := by
  rw [show matchHere (.many set :: r) s = (List.range ((s.takeWhile set.contains).length + 1)).reverse.any
    (fun k => matchHere r (s.drop k)) by rw [matchHere], List.any_eq_true]
  constructor
  · rintro ⟨k, hk, hm⟩
    rw [List.mem_reverse, List.mem_range] at hk
    refine ⟨s.take k, s.drop k, (List.take_append_drop k s).symm, fun c hc => ?_, hm⟩
    have hp : s.take k <+: s.takeWhile set.contains :=
      List.prefix_of_prefix_length_le (List.take_prefix k s) (List.takeWhile_prefix _)
        ((List.length_take_le k s).trans (by omega))
    have := List.all_eq_true.1 (List.all_takeWhile (p := set.contains) (l := s)) c (hp.subset hc)
    simpa using this
  · rintro ⟨p, s', rfl, hp, hm⟩
    refine ⟨p.length, ?_, by rw [List.drop_left]; exact hm⟩
    rw [List.mem_reverse, List.mem_range]
    have : (p ++ s').takeWhile set.contains = p ++ s'.takeWhile set.contains :=
      List.takeWhile_append_of_pos fun c hc => by simpa using hp c hc
    rw [this, List.length_append]
    omega

theorem match_word (w : List Char) (r : List Item) (s : Str) :
    matchHere (w.map (fun c => .one [c]) ++ r) s = true ↔ ∃ s', s = w ++ s' ∧ matchHere r s' = true := by
  induction w generalizing s with
  | nil => simp
  | cons a w ih =>
    rw [List.map_cons, List.cons_append, match_one]
    constructor
    · rintro ⟨c, s', rfl, hc, hm⟩
      obtain ⟨s'', rfl, h⟩ := (ih s').1 hm
      rw [List.mem_singleton] at hc
      exact ⟨s'', by rw [hc]; rfl, h⟩
    · rintro ⟨s', rfl, hm⟩
      exact ⟨a, w ++ s', rfl, by simp, (ih _).2 ⟨s', rfl, hm⟩⟩

theorem blanks_iff (p : List Char) : (∀ c ∈ p, c ∈ [' ']) ↔ p = List.replicate p.length ' ' := by
  rw [List.eq_replicate_iff]
  simp

theorem labelled_find (label : String) (r : List Item) (text : Str) :
    find (.one ['C', 'c'] :: (label.toList.map (fun c => .one [c]) ++ r)) text = true ↔
      Labelled label (fun rest => matchHere r rest = true) text := by
  rw [find_iff]
  unfold Labelled
  constructor
  · rintro ⟨pre, s, rfl, hm⟩
    obtain ⟨c, s', rfl, hc, hm⟩ := (match_one _ _ _).1 hm
    obtain ⟨s'', rfl, hm2⟩ := (match_word _ _ _).1 hm
    exact ⟨pre, c, s'', rfl, by simpa using hc, hm2⟩
  · rintro ⟨pre, c, rest, rfl, hc, hm⟩
    exact ⟨pre, _, rfl, (match_one _ _ _).2 ⟨c, _, rfl, by simpa using hc, (match_word _ _ _).2 ⟨rest, rfl, hm⟩⟩⟩

theorem begins_match (set : List Char) (s : Str) :
    matchHere [.many [' '], .one set] s = true ↔ BeginsWith set s := by
  rw [match_many]
  unfold BeginsWith
  constructor
  · rintro ⟨p, s', rfl, hp, hm⟩
    obtain ⟨c, s'', rfl, hc, _⟩ := (match_one _ _ _).1 hm
    exact ⟨p.length, c, s'', by rw [← (blanks_iff p).1 hp], hc⟩
  · rintro ⟨k, c, rest, rfl, hc⟩
    refine ⟨_, _, rfl, fun c hc => ?_, (match_one _ _ _).2 ⟨c, rest, rfl, hc, rfl⟩⟩
    rw [List.eq_of_mem_replicate hc]
    simp

/-- The tests of the C++ and Fortran programs. -/
theorem found_upwind (text : Str) : found "[Cc]heck sum:[ ]*[1|0\\\\.999]".toList text = true ↔
    Labelled "heck sum:" (BeginsWith accepted) text := by
  have e : compile none (unescape "[Cc]heck sum:[ ]*[1|0\\\\.999]".toList) =
      some (.one ['C', 'c'] :: ("heck sum:".toList.map (fun c => .one [c]) ++
        [.many [' '], .one ['1', '|', '0', '\\', '.', '9', '9', '9']])) := by decide
  unfold found
  rw [e]
  dsimp only
  rw [labelled_find]
  unfold Labelled
  simp only [begins_match]
  unfold BeginsWith accepted
  simp only [List.mem_cons, or_self, List.not_mem_nil, or_false]

/-- The tests of the Julia and Python programs. -/
theorem found_script (text : Str) : found "[Cc]heck sum:[ ]*[1\\\\.0|0\\\\.999]".toList text = true ↔
    Labelled "heck sum:" (BeginsWith accepted) text := by
  have e : compile none (unescape "[Cc]heck sum:[ ]*[1\\\\.0|0\\\\.999]".toList) =
      some (.one ['C', 'c'] :: ("heck sum:".toList.map (fun c => .one [c]) ++
        [.many [' '], .one ['1', '\\', '.', '0', '|', '0', '\\', '.', '9', '9', '9']])) := by decide
  unfold found
  rw [e]
  dsimp only
  rw [labelled_find]
  unfold Labelled
  simp only [begins_match]
  unfold BeginsWith accepted
  have : ∀ c : Char, c ∈ ['1', '\\', '.', '0', '|', '0', '\\', '.', '9', '9', '9'] ↔ c ∈ ['1', '|', '0', '\\', '.', '9'] := by
    intro c
    simp only [List.mem_cons, List.not_mem_nil, or_false]
    tauto
  simp only [this]

/-- The tests of the Laplacian. -/
theorem found_laplacian (text : Str) : found "[Cc]heck sums:[ ]*".toList text = true ↔
    Labelled "heck sums:" (fun _ => True) text := by
  have e : compile none (unescape "[Cc]heck sums:[ ]*".toList) =
      some (.one ['C', 'c'] :: ("heck sums:".toList.map (fun c => .one [c]) ++ [.many [' ']])) := by decide
  unfold found
  rw [e]
  dsimp only
  rw [labelled_find]
  unfold Labelled
  have : ∀ rest : Str, matchHere [.many [' ']] rest = true ↔ True := fun rest =>
    ⟨fun _ => trivial, fun _ => (match_many _ _ _).2 ⟨[], rest, rfl, by simp, rfl⟩⟩
  simp only [this]

/-- The word looked for by the test of matmult. -/
theorem found_error (text : Str) : found "ERROR".toList text = true ↔ "ERROR".toList <:+: text := by
  have e : compile none (unescape "ERROR".toList) = some ("ERROR".toList.map (fun c => .one [c]) ++ []) := by decide
  unfold found
  rw [e]
  dsimp only
  rw [find_iff]
  constructor
  · rintro ⟨pre, s, rfl, hm⟩
    obtain ⟨s', rfl, _⟩ := (match_word _ _ _).1 hm
    exact ⟨pre, s', by simp⟩
  · rintro ⟨pre, s', rfl⟩
    exact ⟨pre, "ERROR".toList ++ s', by simp, (match_word _ _ _).2 ⟨s', rfl, rfl⟩⟩

theorem passes_pass (r text : Str) (status : Int) : ({ pass := some r } : Test).passes text status = found r text := by
  simp [Test.passes]

/-! ### Labels -/

/-- The label is there once: its `k` is the only one of the text. -/
theorem labelled_once {P : List Char → Prop} {pre rest : List Char} {c : Char} (hc : c = 'C' ∨ c = 'c')
    (hp : 'k' ∉ pre) (hr : 'k' ∉ rest) :
    Labelled "heck sum:" P (pre ++ c :: ("heck sum:".toList ++ rest)) ↔ P rest := by
  constructor
  · rintro ⟨pre', c', rest', e, hc', h⟩
    have e' : (pre ++ [c, 'h', 'e', 'c']) ++ 'k' :: (" sum:".toList ++ rest) =
        (pre' ++ [c', 'h', 'e', 'c']) ++ 'k' :: (" sum:".toList ++ rest') := by simpa using e
    have h1 : 'k' ∉ pre ++ [c, 'h', 'e', 'c'] := by
      rcases hc with rfl | rfl <;> simp [hp]
    have h2 : 'k' ∉ " sum:".toList ++ rest := by simp [hr]
    obtain ⟨_, _, e3⟩ := (List.append_cons_inj_of_notMem h1 h2).1 e'
    rw [List.append_right_inj] at e3
    rw [e3]
    exact h
  · intro h
    exact ⟨pre, c, rest, rfl, hc, h⟩

theorem no_k_nat (n : Nat) : 'k' ∉ (toString n).toList := by
  intro h
  have h' : 'k' ∈ Nat.toDigits 10 n := by simpa [toString, Nat.repr] using h
  exact absurd (toDigits_ok n _ h') (by decide)

theorem no_k_int (z : Int) : 'k' ∉ (toString z).toList := by
  rw [toString_int]
  unfold showInt
  intro h
  split at h
  · rw [List.mem_cons] at h
    rcases h with h | h
    · exact absurd h (by decide)
    · exact absurd (toDigits_ok _ _ h) (by decide)
  · exact absurd (toDigits_ok _ _ h) (by decide)

theorem beginsWith_word {set : List Char} {w rest : List Char} (k : Nat) (hb : ' ' ∉ set) (hne : w ≠ []) (hw : ' ' ∉ w) :
    BeginsWith set (List.replicate k ' ' ++ (w ++ rest)) ↔ ∃ c ∈ set, [c] <+: w := by
  obtain ⟨a, w, rfl⟩ := List.exists_cons_of_ne_nil hne
  have ha : a ≠ ' ' := fun h => hw (by simp [h])
  unfold BeginsWith
  constructor
  · rintro ⟨k', c, rest', e, hc⟩
    have hk : ∀ k k' : Nat, List.replicate k ' ' ++ (a :: w ++ rest) = List.replicate k' ' ' ++ c :: rest' → a = c := by
      intro k
      induction k with
      | zero =>
        intro k' e
        cases k' with
        | zero => injection e
        | succ k' => injection e with e _; exact absurd e ha
      | succ k ih =>
        intro k' e
        cases k' with
        | zero =>
          injection e with e _
          exact absurd (e ▸ hc) hb
        | succ k' =>
          injection e with _ e
          exact ih k' e
    exact ⟨c, hc, by rw [hk k k' e]; exact ⟨w, rfl⟩⟩
  · rintro ⟨c, hc, t, e⟩
    injection e with e _
    exact ⟨k, a, w ++ rest, rfl, by rw [← e]; exact hc⟩

/-! ### Streams -/

theorem merge_empty {streams : List Str} (h : ∀ s ∈ streams, s = []) (text : Str) : Merge streams text ↔ text = [] := by
  constructor
  · intro hm
    cases hm with
    | done => rfl
    | next _ i c s text hi _ =>
      have := h _ (List.mem_of_getElem? hi)
      cases this
  · rintro rfl
    exact .done _ h

/-- If only one stream is written to, the text is that of this stream. -/
theorem merge_single {streams : List Str} {i : Nat} {s : Str} (hi : streams[i]? = some s)
    (h : ∀ j, j ≠ i → ∀ s', streams[j]? = some s' → s' = []) (text : Str) : Merge streams text ↔ text = s := by
  induction s generalizing streams text with
  | nil =>
    apply merge_empty
    intro s' hs'
    obtain ⟨j, hj⟩ := List.getElem?_of_mem hs'
    by_cases hji : j = i
    · rw [hji, hi, Option.some_inj] at hj
      exact hj.symm
    · exact h j hji s' hj
  | cons c s ih =>
    have hlt : i < streams.length := (List.getElem?_eq_some_iff.1 hi).1
    have hset : (streams.set i s)[i]? = some s := by rw [List.getElem?_set_self hlt]
    have hoth : ∀ j, j ≠ i → ∀ s', (streams.set i s)[j]? = some s' → s' = [] := by
      intro j hj s' hs'
      rw [List.getElem?_set_ne (Ne.symm hj)] at hs'
      exact h j hj s' hs'
    constructor
    · intro hm
      cases hm with
      | done _ h0 =>
        have := h0 _ (List.mem_of_getElem? hi)
        cases this
      | next _ j c' s' t hj hm =>
        by_cases hji : j = i
        · subst hji
          rw [hi, Option.some_inj] at hj
          injection hj with h1 h2
          subst h1 h2
          rw [(ih hset hoth t).1 hm]
        · have := h j hji _ hj
          cases this
    · rintro rfl
      exact .next _ i c s s hi ((ih hset hoth s).2 rfl)

/-- There is an interleaving. -/
theorem merge_exists (streams : List Str) : ∃ text, Merge streams text := by
  induction hn : (streams.map List.length).sum using Nat.strong_induction_on generalizing streams with
  | h n ih =>
    by_cases hall : ∀ s ∈ streams, s = []
    · exact ⟨[], .done _ hall⟩
    have : ∃ s ∈ streams, s ≠ [] := by
      push Not at hall
      exact hall
    obtain ⟨s, hs, hne⟩ := this
    obtain ⟨c, s, rfl⟩ := List.exists_cons_of_ne_nil hne
    obtain ⟨i, hi⟩ := List.getElem?_of_mem hs
    obtain ⟨hlt, hget⟩ := List.getElem?_eq_some_iff.1 hi
    have hset : ((streams.set i s).map List.length).sum < n := by
      have key : ∀ (l : List Str) (i : Nat) (c : Char) (s : Str), l[i]? = some (c :: s) →
          ((l.set i s).map List.length).sum + 1 = (l.map List.length).sum := by
        intro l
        induction l with
        | nil => intro i c s h; simp at h
        | cons a l ih =>
          intro i c s h
          cases i with
          | zero =>
            rw [List.getElem?_cons_zero, Option.some_inj] at h
            subst h
            simp only [List.set_cons_zero, List.map_cons, List.sum_cons, List.length_cons]
            omega
          | succ i =>
            rw [List.getElem?_cons_succ] at h
            have := ih i c s h
            simp only [List.set_cons_succ, List.map_cons, List.sum_cons]
            omega
      have := key streams i c s hi
      omega
    obtain ⟨text, ht⟩ := ih _ hset _ rfl
    exact ⟨c :: text, .next _ i c s text hi ht⟩

/-- A program of one process that writes nothing to the error stream. -/
theorem verdict_out (t : Test) (out : Str) (files : List (Str × Str)) (status : Int) (b : Bool) :
    Verdict t { out, err := [], files, status } b ↔ t.passes out status = b := by
  have hm : ∀ text, Merge [out, []] text ↔ text = out := merge_single (i := 0) rfl (by
    intro j hj s' hs'
    match j, hj with
    | 1, _ => simpa using hs'.symm
    | j + 2, _ => simp at hs')
  unfold Verdict
  constructor
  · rintro ⟨text, h, hp⟩
    rw [(hm text).1 h] at hp
    exact hp
  · intro h
    exact ⟨out, (hm out).2 rfl, h⟩

/-- Processes of which only the first one writes. -/
theorem mpiVerdict_root (t : Test) {sz : Nat} (hsz : 1 ≤ sz) (root : Exit) (hone : root.err = [] ∨ root.out = [])
    (hs : root.status = 0) (b : Bool) :
    MpiVerdict t (fromRoot sz root) b ↔ t.passes (root.out ++ root.err) 0 = b := by
  have hflat : (fromRoot sz root).ranks.flatMap (fun r => [r.out, r.err]) =
      root.out :: root.err :: List.replicate (2 * (sz - 1)) [] := by
    obtain ⟨k, rfl⟩ : ∃ k, sz = k + 1 := ⟨sz - 1, by omega⟩
    unfold fromRoot
    rw [List.range_succ_eq_map, List.map_cons, if_pos rfl, List.flatMap_cons]
    simp only [List.cons_append, List.nil_append]
    congr 2
    rw [List.map_map, List.eq_replicate_iff]
    constructor
    · simp [List.length_flatMap, Function.comp_def, Nat.mul_comm]
    · intro s hm
      simp at hm
      exact hm.2
  have hmerge : ∀ text, Merge (root.out :: root.err :: List.replicate (2 * (sz - 1)) []) text ↔ text = root.out ++ root.err := by
    intro text
    rcases hone with h | h
    · rw [h, List.append_nil]
      refine merge_single (i := 0) rfl (fun j hj s' hs' => ?_) text
      match j, hj with
      | 1, _ => simpa using hs'.symm
      | j + 2, _ =>
        have := List.mem_of_getElem? (show (List.replicate (2 * (sz - 1)) ([] : Str))[j]? = some s' from hs')
        exact List.eq_of_mem_replicate this
    · rw [h, List.nil_append]
      refine merge_single (i := 1) rfl (fun j hj s' hs' => ?_) text
      match j, hj with
      | 0, _ => simpa using hs'.symm
      | j + 2, _ =>
        have := List.mem_of_getElem? (show (List.replicate (2 * (sz - 1)) ([] : Str))[j]? = some s' from hs')
        exact List.eq_of_mem_replicate this
  have hst : ∀ r ∈ (fromRoot sz root).ranks, r.status = 0 := by
    intro r hr
    obtain ⟨rk, _, rfl⟩ := List.mem_map.1 hr
    split
    · exact hs
    · rfl
  unfold MpiVerdict
  rw [hflat]
  constructor
  · rintro ⟨text, status, hm, h0, hp⟩
    rw [(hmerge text).1 hm, h0.2 hst] at hp
    exact hp
  · intro h
    exact ⟨_, 0, (hmerge _).2 rfl, ⟨fun _ => hst, fun _ => rfl⟩, h⟩

/-! ### Arguments -/

/-- No argument looks like an option: none is looked at. -/
theorem plain_args {args : List Str} (h : ∀ a ∈ args, ¬ LooksLikeOption a) (names : List Str)
    (name : Str) (hname : LooksLikeOption name) (d : Int) :
    AllKnown names args ∧ IntValue Reads args name d d ∧ flagValue args name = false := by
  have hno : name ∉ args := fun hm => h name hm hname
  have hidx : ∀ i, args[i]? ≠ some name := fun i hi => hno (List.mem_of_getElem? hi)
  refine ⟨fun a ha hl => absurd hl (h a ha), ⟨?_, .inl ⟨fun i hi => absurd hi (hidx i), rfl⟩⟩, ?_⟩
  · rintro v ⟨i, hi, _⟩
    exact absurd hi (hidx i)
  · unfold flagValue
    rw [List.count_eq_zero.2 hno]
    rfl

end Fidi.CTest
