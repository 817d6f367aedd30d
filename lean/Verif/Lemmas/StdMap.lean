import Verif.Lemmas.Machine
import Verif.Model.StdMap
import Mathlib.Order.Defs.LinearOrder
import Mathlib.Order.Basic

/-
Lemmas about the model of `std::map`, for linearly ordered keys.
-/
namespace Fidi
namespace StdMap
variable {K V W : Type} [LinearOrder K] [DecidableLT K]

/-- Keys are strictly increasing. -/
def Sorted (m : StdMap K V) : Prop := (m.map Prod.fst).Pairwise (· < ·)

omit [DecidableLT K] in
theorem sorted_nil : Sorted ([] : StdMap K V) := List.Pairwise.nil

omit [DecidableLT K] in
theorem sorted_cons {kv : K × V} {m : StdMap K V} : Sorted (kv :: m) ↔ (∀ p ∈ m, kv.1 < p.1) ∧ Sorted m := by
  unfold Sorted
  rw [List.map_cons, List.pairwise_cons]
  simp

theorem find_cons (k' : K) (v : V) (m : StdMap K V) (k : K) :
    find ((k', v) :: m) k = if k' < k then find m k else if k < k' then none else some v := rfl

theorem find_none_of_lt {m : StdMap K V} {k : K} (h : ∀ p ∈ m, k < p.1) : find m k = none := by
  cases m with
  | nil => rfl
  | cons p m =>
    obtain ⟨k', v⟩ := p
    have := h (k', v) (by simp)
    rw [find_cons, if_neg (not_lt.2 this.le), if_pos this]

theorem mem_iff_find {m : StdMap K V} (h : Sorted m) (k : K) (v : V) : (k, v) ∈ m ↔ find m k = some v := by
  induction m with
  | nil => simp [find]
  | cons p m ih =>
    obtain ⟨k', v'⟩ := p
    rw [sorted_cons] at h
    rw [find_cons, List.mem_cons]
    rcases lt_trichotomy k' k with hk | hk | hk
    · rw [if_pos hk, ← ih h.2]
      constructor
      · rintro (e | e)
        · injection e with e1 e2; exact absurd hk (by rw [e1]; exact lt_irrefl _)
        · exact e
      · exact Or.inr
    · subst hk
      rw [if_neg (lt_irrefl _), if_neg (lt_irrefl _)]
      constructor
      · rintro (e | e)
        · injection e with e1 e2; rw [e2]
        · exact absurd (h.1 _ e) (lt_irrefl _)
      · intro e; injection e with e; left; rw [e]
    · rw [if_neg (not_lt.2 hk.le), if_pos hk]
      constructor
      · rintro (e | e)
        · injection e with e1 e2; exact absurd hk (by rw [e1]; exact lt_irrefl _)
        · exact absurd (lt_trans hk (h.1 _ e)) (lt_irrefl _)
      · simp

theorem find_set (m : StdMap K V) (k : K) (v : V) (k' : K) :
    find (set m k v) k' = if k' = k then some v else find m k' := by
  induction m with
  | nil =>
    simp only [set, find_cons]
    rcases lt_trichotomy k k' with h | h | h
    · rw [if_pos h, if_neg h.ne']
    · subst h; simp
    · rw [if_neg (not_lt.2 h.le), if_pos h, if_neg h.ne]; rfl
  | cons p m ih =>
    obtain ⟨a, b⟩ := p
    rcases lt_trichotomy a k with h | h | h
    · rw [set, if_pos h, find_cons, find_cons, ih]
      by_cases e : k' = k
      · subst e; simp [h]
      · simp [e]
    · subst h
      rw [set, if_neg (lt_irrefl _), if_neg (lt_irrefl _), find_cons, find_cons]
      rcases lt_trichotomy a k' with h | h | h
      · simp [h, h.ne']
      · subst h; simp
      · simp [h, h.ne, not_lt.2 h.le]
    · rw [set, if_neg (not_lt.2 h.le), if_pos h, find_cons, find_cons]
      rcases lt_trichotomy k k' with h' | h' | h'
      · simp [h', h'.ne']
      · subst h'; simp
      · have h2 : k' < a := lt_trans h' h
        simp [h', h'.ne, not_lt.2 h'.le, h2, not_lt.2 h2.le]

theorem find_insert (m : StdMap K V) (k : K) (v : V) (k' : K) :
    find (insert m k v) k' = if k' = k then some ((find m k).getD v) else find m k' := by
  induction m with
  | nil =>
    simp only [insert, find_cons]
    rcases lt_trichotomy k k' with h | h | h
    · rw [if_pos h, if_neg h.ne']
    · subst h; simp [find]
    · rw [if_neg (not_lt.2 h.le), if_pos h, if_neg h.ne]; rfl
  | cons p m ih =>
    obtain ⟨a, b⟩ := p
    rcases lt_trichotomy a k with h | h | h
    · rw [insert, if_pos h, find_cons, find_cons, find_cons, ih]
      by_cases e : k' = k
      · subst e; simp [h]
      · simp [e]
    · subst h
      rw [insert, if_neg (lt_irrefl _), if_neg (lt_irrefl _), find_cons, find_cons]
      rcases lt_trichotomy a k' with h | h | h
      · simp [h, h.ne']
      · subst h; simp
      · simp [h, h.ne, not_lt.2 h.le]
    · rw [insert, if_neg (not_lt.2 h.le), if_pos h, find_cons, find_cons, find_cons]
      rcases lt_trichotomy k k' with h' | h' | h'
      · simp [h', h'.ne']
      · subst h'; simp [h, not_lt.2 h.le]
      · have h2 : k' < a := lt_trans h' h
        simp [h', h'.ne, not_lt.2 h'.le, h2, not_lt.2 h2.le]

theorem mem_set_key {m : StdMap K V} {k : K} {v : V} {p : K × V} (h : p ∈ set m k v) : p.1 = k ∨ ∃ q ∈ m, q.1 = p.1 := by
  induction m with
  | nil => simp [set] at h; left; rw [h]
  | cons q m ih =>
    obtain ⟨a, b⟩ := q
    rw [set] at h
    split at h
    · rcases List.mem_cons.1 h with h | h
      · right; exact ⟨(a, b), by simp, by rw [h]⟩
      · rcases ih h with h | ⟨q, hq, h⟩
        · exact Or.inl h
        · right; exact ⟨q, by simp [hq], h⟩
    · split at h
      · rcases List.mem_cons.1 h with h | h
        · left; rw [h]
        · right; exact ⟨p, h, rfl⟩
      · rcases List.mem_cons.1 h with h | h
        · right; exact ⟨(a, b), by simp, by rw [h]⟩
        · right; exact ⟨p, by simp [h], rfl⟩

theorem sorted_set {m : StdMap K V} (h : Sorted m) (k : K) (v : V) : Sorted (set m k v) := by
  induction m with
  | nil => simp [set, Sorted]
  | cons q m ih =>
    obtain ⟨a, b⟩ := q
    rw [sorted_cons] at h
    rw [set]
    split
    · rename_i ha
      rw [sorted_cons]
      refine ⟨?_, ih h.2⟩
      intro p hp
      rcases mem_set_key hp with e | ⟨q, hq, e⟩
      · rw [e]; exact ha
      · rw [← e]; exact h.1 q hq
    · split
      · rename_i _ hk
        rw [sorted_cons, sorted_cons]
        refine ⟨?_, h⟩
        intro p hp
        rcases List.mem_cons.1 hp with e | e
        · rw [e]; exact hk
        · exact lt_trans hk (h.1 p e)
      · rw [sorted_cons]; exact h

theorem mem_insert_key {m : StdMap K V} {k : K} {v : V} {p : K × V} (h : p ∈ insert m k v) :
    p.1 = k ∨ p ∈ m := by
  induction m with
  | nil => simp [insert] at h; left; rw [h]
  | cons q m ih =>
    obtain ⟨a, b⟩ := q
    rw [insert] at h
    split at h
    · rcases List.mem_cons.1 h with h | h
      · right; rw [h]; simp
      · rcases ih h with h | h
        · exact Or.inl h
        · right; simp [h]
    · split at h
      · rcases List.mem_cons.1 h with h | h
        · left; rw [h]
        · right; exact h
      · right; exact h

theorem sorted_insert {m : StdMap K V} (h : Sorted m) (k : K) (v : V) : Sorted (insert m k v) := by
  induction m with
  | nil => simp [insert, Sorted]
  | cons q m ih =>
    obtain ⟨a, b⟩ := q
    have h' := h
    rw [sorted_cons] at h
    rw [insert]
    split
    · rename_i ha
      rw [sorted_cons]
      refine ⟨?_, ih h.2⟩
      intro p hp
      rcases mem_insert_key hp with e | hq
      · rw [e]; exact ha
      · exact h.1 p hq
    · split
      · rename_i _ hk
        rw [sorted_cons, sorted_cons]
        refine ⟨?_, h⟩
        intro p hp
        rcases List.mem_cons.1 hp with e | e
        · rw [e]; exact hk
        · exact lt_trans hk (h.1 p e)
      · exact h'

/-- Updating the values in place, with a computation that can fail. -/
theorem find_mapM {f : K → V → M W} {m : StdMap K V} {m' : StdMap K W}
    (h : (m.mapM fun kv => do pure (kv.1, ← f kv.1 kv.2)) = Except.ok m') (k : K) :
    (find m k = none → find m' k = none) ∧ (∀ v, find m k = some v → ∃ w, f k v = .ok w ∧ find m' k = some w) := by
  induction m generalizing m' with
  | nil => simp at h; subst h; simp [find]
  | cons p m ih =>
    obtain ⟨a, b⟩ := p
    rw [List.mapM_cons] at h
    obtain ⟨x, hx, h⟩ := (M.bind_ok_iff _ _ _).1 h
    obtain ⟨w, hw, hx⟩ := (M.bind_ok_iff _ _ _).1 hx
    obtain ⟨y, hy, h⟩ := (M.bind_ok_iff _ _ _).1 h
    simp only [M.pure_eq, Except.ok.injEq] at hx h
    subst hx h
    have := ih hy
    rw [find_cons, find_cons]
    rcases lt_trichotomy a k with hk | hk | hk
    · simpa [hk] using this
    · subst hk
      simp only [lt_irrefl, if_false]
      refine ⟨by simp, ?_⟩
      intro v hv
      injection hv with hv; subst hv
      exact ⟨w, hw, rfl⟩
    · simp [hk, not_lt.2 hk.le]

omit [LinearOrder K] [DecidableLT K] in
theorem mapM_ok_of {f : K → V → M W} {m : StdMap K V} (h : ∀ p ∈ m, ∃ w, f p.1 p.2 = .ok w) :
    ∃ m', (m.mapM fun kv => do pure (kv.1, ← f kv.1 kv.2)) = (Except.ok m' : M (StdMap K W)) := by
  induction m with
  | nil => exact ⟨[], rfl⟩
  | cons p m ih =>
    obtain ⟨w, hw⟩ := h p (by simp)
    obtain ⟨m', hm⟩ := ih fun q hq => h q (by simp [hq])
    refine ⟨(p.1, w) :: m', ?_⟩
    rw [List.mapM_cons, hm, hw]
    rfl

omit [LinearOrder K] [DecidableLT K] in
theorem keys_mapM {f : K → V → M W} {m : StdMap K V} {m' : StdMap K W}
    (h : (m.mapM fun kv => do pure (kv.1, ← f kv.1 kv.2)) = Except.ok m') : m'.map Prod.fst = m.map Prod.fst := by
  induction m generalizing m' with
  | nil => simp at h; subst h; rfl
  | cons p m ih =>
    rw [List.mapM_cons] at h
    obtain ⟨x, hx, h⟩ := (M.bind_ok_iff _ _ _).1 h
    obtain ⟨w, hw, hx⟩ := (M.bind_ok_iff _ _ _).1 hx
    obtain ⟨y, hy, h⟩ := (M.bind_ok_iff _ _ _).1 h
    simp only [M.pure_eq, Except.ok.injEq] at hx h
    subst hx h
    simp [ih hy]

theorem find_map {f : K → V → W} (m : StdMap K V) (k : K) :
    find (m.map fun kv => (kv.1, f kv.1 kv.2)) k = (find m k).map (f k) := by
  induction m with
  | nil => rfl
  | cons p m ih =>
    obtain ⟨a, b⟩ := p
    rw [List.map_cons, find_cons, find_cons, ih]
    rcases lt_trichotomy a k with hk | hk | hk
    · simp [hk]
    · subst hk; simp
    · simp [hk, not_lt.2 hk.le]

end StdMap
end Fidi
