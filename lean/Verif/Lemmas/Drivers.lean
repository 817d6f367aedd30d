import Verif.Lemmas.UpwindExact
import Verif.Lemmas.FilterSum
import Verif.Lemmas.FilterSetup
import Verif.Model.Drivers

/-
The stencils assembled by the drivers `laplacian` and `upwindMpi`.
-/
namespace Fidi
open Spec

namespace StdMap
variable {K V : Type} [LinearOrder K] [DecidableLT K]

theorem insert_perm (m : StdMap K V) (k : K) (v : V) (h : ∀ p ∈ m, p.1 ≠ k) : (insert m k v).Perm ((k, v) :: m) := by
  induction m with
  | nil => exact List.Perm.refl _
  | cons a m ih =>
    obtain ⟨k', v'⟩ := a
    unfold insert
    split
    · exact (List.Perm.cons _ (ih fun p hp => h p (List.mem_cons_of_mem _ hp))).trans (List.Perm.swap _ _ _)
    · split
      · exact List.Perm.refl _
      · next h1 h2 => exact absurd (le_antisymm (not_lt.1 h2) (not_lt.1 h1)) (h (k', v') (by simp))

end StdMap

/-- The offset `s` along axis `j`. -/
def axisOff (n j : Nat) (s : Int) : List Int := (List.replicate n 0).set j s

theorem length_axisOff (n j : Nat) (s : Int) : (axisOff n j s).length = n := by simp [axisOff]

theorem getElem?_axisOff (n j i : Nat) (s : Int) (hi : i < n) :
    (axisOff n j s)[i]? = some (if j = i then s else 0) := by
  unfold axisOff
  rw [List.getElem?_set]
  split
  · next h => subst h; simp [hi]
  · simp [hi]

theorem axisOff_inj {n j j' : Nat} {s s' : Int} (hj : j < n) (hs : s ≠ 0) (h : axisOff n j s = axisOff n j' s') :
    j = j' ∧ s = s' := by
  have h1 := getElem?_axisOff n j j s hj
  rw [h, getElem?_axisOff n j' j s' hj, if_pos rfl, Option.some_inj] at h1
  split at h1
  · next e => exact ⟨e.symm, h1.symm⟩
  · exact absurd h1.symm hs

theorem axisOff_ne_zero {n j : Nat} {s : Int} (hj : j < n) (hs : s ≠ 0) : axisOff n j s ≠ List.replicate n 0 := by
  intro h
  have h1 := getElem?_axisOff n j j s hj
  rw [h, if_pos rfl, List.getElem?_replicate, if_pos hj, Option.some_inj] at h1
  exact hs h1.symm

theorem axisOff_axis {n j : Nat} {s : Int} (hs : s = -1 ∨ s = 0 ∨ s = 1) : AxisOffset n (axisOff n j s) := by
  refine ⟨length_axisOff n j s, ?_, j, ?_⟩
  · intro o ho
    rcases List.mem_or_eq_of_mem_set ho with h | h
    · right; left; exact List.eq_of_mem_replicate h
    · rw [h]; exact hs
  · intro i hi
    rw [List.getD_eq_getElem?_getD]
    by_cases h : i < n
    · rw [getElem?_axisOff n j i s h, if_neg (Ne.symm hi)]; rfl
    · rw [List.getElem?_eq_none (by rw [length_axisOff]; omega)]; rfl

theorem zeroOff_axis (n : Nat) : AxisOffset n (List.replicate n 0) := by
  refine ⟨by simp, fun o ho => .inr (.inl (List.eq_of_mem_replicate ho)), 0, ?_⟩
  intro i _
  rw [List.getD_eq_getElem?_getD, List.getElem?_replicate]
  split <;> rfl

theorem shiftMod_axisOff {N g : List Nat} (hg : InGrid N g) (j : Nat) (s : Int) :
    shiftMod N g (axisOff N.length j s) = neighbour N j s g := by
  have hl := hg.length_eq
  have h2 := (shiftMod_inGrid hg (length_axisOff N.length j s)).length_eq
  obtain ⟨_, hb⟩ := inGrid_iff_getElem.1 hg
  apply ext_of_getElem? (by rw [neighbour_length, h2, hl])
  intro i hi
  rw [neighbour_length, hl] at hi
  rw [shiftMod_getElem i hi (by omega) (by rw [length_axisOff]; exact hi),
    List.getElem?_eq_getElem (by rw [neighbour_length]; omega), neighbour_getElem (by omega)]
  have e : (axisOff N.length j s)[i]'(by rw [length_axisOff]; exact hi) = if j = i then s else 0 := by
    have := getElem?_axisOff N.length j i s hi
    rw [List.getElem?_eq_getElem (by rw [length_axisOff]; exact hi), Option.some_inj] at this
    exact this
  rw [e]
  have hlt := hb i hi (by omega)
  split
  · next h => subst h; rw [Upwind.natGetD_of_lt hi]
  · rw [Int.add_zero, Int.emod_eq_of_lt (by omega) (by omega)]; rfl

theorem shiftMod_zeroOff {N g : List Nat} (hg : InGrid N g) : shiftMod N g (List.replicate N.length 0) = g := by
  have hl := hg.length_eq
  have h2 := (shiftMod_inGrid hg (dir := List.replicate N.length 0) (by simp)).length_eq
  obtain ⟨_, hb⟩ := inGrid_iff_getElem.1 hg
  apply ext_of_getElem? (by rw [h2, hl])
  intro i hi
  rw [hl] at hi
  rw [shiftMod_getElem i hi (by omega) (by simpa using hi), List.getElem?_eq_getElem (by omega)]
  have hlt := hb i hi (by omega)
  simp only [List.getElem_replicate]
  rw [Int.add_zero, Int.emod_eq_of_lt (by omega) (by omega)]; rfl

/-! ### laplacian -/

section
variable {R : Type} [Zero R] [One R] [Add R] [Sub R] [Mul R] [Div R] [Neg R] [NatCast R] [LT R] [DecidableLT R]

/-- The entries of the stencil of `laplacian`, in the order of insertion. -/
def lapEntries (R : Type) [One R] [Mul R] [Neg R] [NatCast R] (n m : Nat) : List (List Int × R) :=
  (List.replicate n 0, -((2 : Nat) : R) * (n : R)) ::
    (List.range m).flatMap fun i => [(axisOff n i 1, 1), (axisOff n i (-1), 1)]

omit [Zero R] [Add R] [Sub R] [Div R] [LT R] [DecidableLT R] in
theorem lapEntries_succ (n m : Nat) : lapEntries R n (m + 1) =
    lapEntries R n m ++ [(axisOff n m 1, 1), (axisOff n m (-1), 1)] := by
  unfold lapEntries
  rw [List.range_succ, List.flatMap_append]
  simp

omit [Zero R] [Add R] [Sub R] [Div R] [LT R] [DecidableLT R] in
theorem mem_lapEntries {n m : Nat} {p : List Int × R} (h : p ∈ lapEntries R n m) :
    p.1 = List.replicate n 0 ∨ ∃ i < m, p.1 = axisOff n i 1 ∨ p.1 = axisOff n i (-1) := by
  unfold lapEntries at h
  simp only [List.mem_cons, List.mem_flatMap, List.mem_range, List.not_mem_nil, or_false] at h
  rcases h with rfl | ⟨i, hi, rfl | rfl⟩
  · left; rfl
  · right; exact ⟨i, hi, .inl rfl⟩
  · right; exact ⟨i, hi, .inr rfl⟩

omit [Zero R] [Add R] [Sub R] [Div R] [LT R] [DecidableLT R] in
theorem laplacian_stencil (n : Nat) : ∃ st : StdMap (List Int) R, Laplacian.stencil n = .ok st ∧
    st.Perm (lapEntries R n n) := by
  unfold Laplacian.stencil
  obtain ⟨⟨st, off⟩, e, h1, h2⟩ := forUp_inv (Nat.zero_le n)
    (fun i (s : StdMap (List Int) R × List Int) => s.2 = List.replicate n 0 ∧ s.1.Perm (lapEntries R n i))
    Laplacian.axisBody (StdMap.insert [] (List.replicate n 0) (-((2 : Nat) : R) * (n : R)), List.replicate n 0)
    ⟨rfl, List.Perm.refl _⟩
    (by
      rintro i ⟨st, off⟩ _ hi ⟨h1, h2⟩
      dsimp only at h1 h2
      subst h1
      unfold Laplacian.axisBody
      dsimp only
      rw [wr_of_lt (by simpa using hi), M.ok_bind, wr_of_lt (by simpa using hi), M.ok_bind,
        wr_of_lt (by simpa using hi), M.ok_bind, M.pure_eq, List.set_set, List.set_set]
      refine ⟨_, rfl, ?_, ?_⟩
      · dsimp only
        apply List.ext_getElem? 
        intro k
        rw [List.getElem?_set]
        split
        · next h => subst h; simp [hi]
        · rfl
      · dsimp only
        have k1 : ∀ p ∈ st, p.1 ≠ axisOff n i 1 := by
          intro p hp he
          rcases mem_lapEntries (h2.mem_iff.1 hp) with h | ⟨j, hj, h | h⟩
          · exact axisOff_ne_zero hi (by decide) (he.symm.trans h)
          · have := (axisOff_inj hi (by decide) (he.symm.trans h)).1; omega
          · have := (axisOff_inj hi (by decide) (he.symm.trans h)).1; omega
        have p1 := StdMap.insert_perm st (axisOff n i 1) (1 : R) k1
        have k2 : ∀ p ∈ StdMap.insert st (axisOff n i 1) (1 : R), p.1 ≠ axisOff n i (-1) := by
          intro p hp he
          rcases List.mem_cons.1 (p1.mem_iff.1 hp) with h | hp
          · rw [h] at he
            have := (axisOff_inj hi (by decide) he).2; omega
          · rcases mem_lapEntries (h2.mem_iff.1 hp) with h | ⟨j, hj, h | h⟩
            · exact axisOff_ne_zero hi (by decide) (he.symm.trans h)
            · have := (axisOff_inj hi (by decide) (he.symm.trans h)).1; omega
            · have := (axisOff_inj hi (by decide) (he.symm.trans h)).1; omega
        have p2 := StdMap.insert_perm _ (axisOff n i (-1)) (1 : R) k2
        refine p2.trans ((List.Perm.cons _ (p1.trans (List.Perm.cons _ h2))).trans ?_)
        rw [lapEntries_succ]
        refine List.Perm.trans (List.Perm.swap _ _ _) ?_
        exact List.perm_append_comm (l₁ := [(axisOff n i 1, 1), (axisOff n i (-1), 1)]))
  dsimp only
  rw [e, M.ok_bind]
  exact ⟨st, rfl, h2⟩

end

/-! ### Exact arithmetic -/

section
variable {K : Type} [Field K]

theorem stencilStep_sum (dims : List Nat) (st : List (List Int × K)) (u : List Nat → K) (g : List Nat) :
    stencilStep dims st u g = (st.map fun p => p.2 * u (shiftMod dims g p.1)).sum := by
  unfold stencilStep
  rw [← List.foldl_map (f := fun p : List Int × K => p.2 * u (shiftMod dims g p.1)) (g := fun acc x => acc + x), foldl_add,
    zero_add]

theorem stencilStep_perm {dims : List Nat} {st st' : List (List Int × K)} (h : st.Perm st') (u : List Nat → K)
    (g : List Nat) : stencilStep dims st u g = stencilStep dims st' u g := by
  rw [stencilStep_sum, stencilStep_sum, (h.map _).sum_eq]

theorem stencilStep_lap {dims g : List Nat} (hg : InGrid dims g) (u : List Nat → K) :
    stencilStep dims (lapEntries K dims.length dims.length) u g = laplace dims u g := by
  have key : ∀ m : Nat, ((lapEntries K dims.length m).map fun p => p.2 * u (shiftMod dims g p.1)).sum =
      -2 * dims.length * u g +
        ((List.range m).map fun j => u (neighbour dims j 1 g) + u (neighbour dims j (-1) g)).sum := by
    intro m
    induction m with
    | zero => simp [lapEntries, shiftMod_zeroOff hg]
    | succ m ih =>
      rw [lapEntries_succ, List.map_append, List.sum_append, ih, List.range_succ, List.map_append, List.sum_append]
      simp only [List.map_cons, List.map_nil, List.sum_cons, List.sum_nil, shiftMod_axisOff hg]
      ring
  rw [stencilStep_sum, key]
  unfold laplace
  have h2 : ∀ m : Nat, ((List.range m).map fun j => u (neighbour dims j 1 g) + u (neighbour dims j (-1) g) - 2 * u g).sum =
      ((List.range m).map fun j => u (neighbour dims j 1 g) + u (neighbour dims j (-1) g)).sum - 2 * m * u g := by
    intro m
    induction m with
    | zero => simp
    | succ m ih =>
      rw [List.range_succ, List.map_append, List.sum_append, ih, List.map_append, List.sum_append]
      simp only [List.map_cons, List.map_nil, List.sum_cons, List.sum_nil]
      push_cast
      ring
  rw [h2]
  ring

/-- The sum over any enumeration of the cells. -/
theorem sum_cells {N : List Nat} (hp : ∀ n ∈ N, 0 < n) {cells : List (List Nat)} (hnd : cells.Nodup)
    (hmem : ∀ g, g ∈ cells ↔ InGrid N g) (u : List Nat → K) : (cells.map u).sum = total N u := by
  have h1 : ((List.range N.prod).map (cellAt N)).Nodup := by
    apply List.Nodup.map_on _ List.nodup_range
    intro a ha b hb h
    rw [← rankOf_cellAt hp (List.mem_range.1 ha), ← rankOf_cellAt hp (List.mem_range.1 hb), h]
  have hperm : ((List.range N.prod).map (cellAt N)).Perm cells := by
    rw [List.perm_ext_iff_of_nodup h1 hnd]
    intro g
    rw [hmem, List.mem_map]
    constructor
    · rintro ⟨i, _, rfl⟩; exact cellAt_inGrid hp i
    · intro hg; exact ⟨rankOf N g, List.mem_range.2 (rankOf_lt hg), cellAt_rankOf hg⟩
  rw [← (hperm.map u).sum_eq, List.map_map, ← sum_listOf]
  rfl

end
end Fidi
