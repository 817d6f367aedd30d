import Verif.Model.UpwindAcc
import Verif.Lemmas.UpwindPar

/-
The offloaded solvers on three axes.
-/
set_option linter.unusedSectionVars false

namespace Fidi
open Fidi.Spec Upwind

namespace UpwindAcc
variable {R : Type} [Zero R] [One R] [Add R] [Sub R] [Mul R] [Div R] [IntCast R] [LT R] [DecidableLT R]

/-- Cell width along axis `j` as computed by the offloaded versions. -/
def width (L : List R) (N : List Nat) (j : Nat) : R := L.getD j 0 / (((N.getD j 0 : Nat) : Int) : R)

/-- Closed form of a constructed object. -/
def built (v L : List R) (a b c : Nat) : UpwindAcc R :=
  { ndims := 3, v, lengths := L, deltas := (List.range 3).map (width L [a, b, c]),
    f := (List.replicate (a * (b * c)) 0).set 0 1, fOld := List.replicate (a * (b * c)) 0,
    coeff := (List.range 3).map fun j => v.getD j 0 * (upDir v j : R) / width L [a, b, c] j,
    upDirection := (List.range 3).map (upDir v), dimProd := [(b : Int) * c, (c : Int), 1],
    numCells := [(a : Int), (b : Int), (c : Int)], ntot := (a : Int) * (b * c) }

theorem mkInt_nat {n : Nat} (h : n < 2 ^ 31) : mkInt (n : Int) = .ok (n : Int) :=
  mkInt_ok (by rw [intLim_eq]; omega) (by rw [intLim_eq]; omega)

theorem mkInt_of {x : Int} {n : Nat} (h : x = n) (hn : n < 2 ^ 31) : mkInt x = .ok (n : Int) := by
  rw [h]; exact mkInt_nat hn

theorem newBody_eq {vel len ds : List R} {nc up : List Int} {j : Nat} {v l : R} {n p q : Int} (hv : vel[j]? = some v)
    (hl : len[j]? = some l) (hn : nc[j]? = some n) (hq : mkInt (p * n) = .ok q) (hj : j < up.length) (hd : j < ds.length) :
    newBody vel len nc j (ds, up, p) =
      .ok (ds.set j (l / (n : R)), up.set j (if v < 0 then 1 else -1), q) := by
  unfold newBody
  dsimp only
  rw [wr_of_lt hj, M.ok_bind, rd_of_some hv, M.ok_bind]
  by_cases h : v < 0
  · rw [if_pos h, if_pos h, wr_of_lt (by simpa using hj), M.ok_bind, rd_of_some hn, M.ok_bind, rd_of_some hl, M.ok_bind,
      wr_of_lt hd, M.ok_bind, hq, M.ok_bind, List.set_set]
    rfl
  · rw [if_neg h, if_neg h, M.pure_eq, M.ok_bind, rd_of_some hn, M.ok_bind, rd_of_some hl, M.ok_bind, wr_of_lt hd,
      M.ok_bind, hq, M.ok_bind]
    rfl

theorem strides3 {a b c x y : Int} (h1 : mkInt (1 * c) = .ok x) (h2 : mkInt (x * b) = .ok y) :
    (forDown 2 [0, 0, 1] fun i dp => do
      wr dp i (← mkInt ((← rd dp (i + 1)) * (← rd [a, b, c] (i + 1))))) = .ok [y, x, 1] := by
  unfold forDown
  dsimp only
  rw [rd_of_some (x := 1) rfl, M.ok_bind, rd_of_some (x := c) rfl, M.ok_bind, h1, M.ok_bind, wr_of_lt (by decide),
    M.ok_bind]
  unfold forDown
  dsimp only
  rw [rd_of_some (x := x) rfl, M.ok_bind, rd_of_some (x := b) rfl, M.ok_bind, h2, M.ok_bind,
    wr_of_lt (by simp), M.ok_bind]
  rfl

theorem new_eq3 (v L : List R) (a b c : Nat) (ha : 0 < a) (hb : 0 < b) (hc : 0 < c) (hp : a * (b * c) < 2 ^ 31)
    (hv : v.length = 3) (hL : L.length = 3) : new 3 v L [(a : Int), (b : Int), (c : Int)] = .ok (built v L a b c) := by
  obtain ⟨v0, v1, v2, rfl⟩ : ∃ x y z, v = [x, y, z] := by
    match v, hv with
    | [x, y, z], _ => exact ⟨x, y, z, rfl⟩
  obtain ⟨l0, l1, l2, rfl⟩ : ∃ x y z, L = [x, y, z] := by
    match L, hL with
    | [x, y, z], _ => exact ⟨x, y, z, rfl⟩
  have h1 : a ≤ a * (b * c) := Nat.le_mul_of_pos_right _ (Nat.mul_pos hb hc)
  have h2 : b * c ≤ a * (b * c) := Nat.le_mul_of_pos_left _ ha
  have h3 : a * b ≤ a * (b * c) := Nat.mul_le_mul_left _ (Nat.le_mul_of_pos_right _ hc)
  have h4 : c ≤ b * c := Nat.le_mul_of_pos_left _ hb
  have m1 : mkInt (a : Int) = .ok (a : Int) := mkInt_nat (by omega)
  have m2 : mkInt ((a : Int) * b) = .ok ((a : Int) * b) := by
    rw [mkInt_of (n := a * b) (by push_cast; ring) (by omega)]; push_cast; rfl
  have m3 : mkInt ((a : Int) * b * c) = .ok ((a : Int) * (b * c)) := by
    rw [mkInt_of (n := a * (b * c)) (by push_cast; ring) (by omega)]; push_cast; rfl
  have m4 : mkInt (c : Int) = .ok (c : Int) := mkInt_nat (by omega)
  have m5 : mkInt ((c : Int) * b) = .ok ((b : Int) * c) := by
    rw [mkInt_of (n := b * c) (by push_cast; ring) (by omega)]; push_cast; rfl
  have e1 : forUp 0 3 (List.replicate 3 (0 : R), List.replicate 3 (0 : Int), (1 : Int))
      (newBody [v0, v1, v2] [l0, l1, l2] [(a : Int), (b : Int), (c : Int)]) =
      .ok ((List.range 3).map (width [l0, l1, l2] [a, b, c]), (List.range 3).map (upDir [v0, v1, v2]),
        (a : Int) * (b * c)) := by
    have b0 : newBody [v0, v1, v2] [l0, l1, l2] [(a : Int), (b : Int), (c : Int)] 0
        (List.replicate 3 (0 : R), List.replicate 3 (0 : Int), (1 : Int)) =
        .ok ([width [l0, l1, l2] [a, b, c] 0, 0, 0], [upDir [v0, v1, v2] 0, 0, 0], (a : Int)) :=
      newBody_eq rfl rfl rfl (by rw [one_mul]; exact m1) (by simp) (by simp)
    have b1 : newBody [v0, v1, v2] [l0, l1, l2] [(a : Int), (b : Int), (c : Int)] 1
        ([width [l0, l1, l2] [a, b, c] 0, 0, 0], [upDir [v0, v1, v2] 0, 0, 0], (a : Int)) =
        .ok ([width [l0, l1, l2] [a, b, c] 0, width [l0, l1, l2] [a, b, c] 1, 0],
          [upDir [v0, v1, v2] 0, upDir [v0, v1, v2] 1, 0], (a : Int) * b) :=
      newBody_eq rfl rfl rfl m2 (by simp) (by simp)
    have b2 : newBody [v0, v1, v2] [l0, l1, l2] [(a : Int), (b : Int), (c : Int)] 2
        ([width [l0, l1, l2] [a, b, c] 0, width [l0, l1, l2] [a, b, c] 1, 0],
          [upDir [v0, v1, v2] 0, upDir [v0, v1, v2] 1, 0], (a : Int) * b) =
        .ok ((List.range 3).map (width [l0, l1, l2] [a, b, c]), (List.range 3).map (upDir [v0, v1, v2]),
        (a : Int) * (b * c)) :=
      newBody_eq rfl rfl rfl m3 (by simp) (by simp)
    rw [forUp_of_lt (by decide), b0, M.ok_bind, forUp_of_lt (by decide), b1, M.ok_bind, forUp_of_lt (by decide), b2,
      M.ok_bind, forUp_of_ge (by decide)]
  have e2 : wr (List.replicate 3 (0 : Int)) (szSub 3 1) 1 = .ok [0, 0, 1] := by
    rw [szSub_of_le (by omega) (by unfold W; omega)]; rfl
  have e3 : (forDown (3 - 1) [0, 0, 1] fun i dp => do
      wr dp i (← mkInt ((← rd dp (i + 1)) * (← rd [(a : Int), (b : Int), (c : Int)] (i + 1))))) =
      .ok [(b : Int) * c, (c : Int), 1] := by
    exact strides3 (by rw [one_mul]; exact m4) m5
  have e4 : szOfInt ((a : Int) * (b * c)) = a * (b * c) := by
    exact_mod_cast szOfInt_ofNat (n := a * (b * c)) (by unfold W; omega)
  have e5 : (forUp 0 3 (List.replicate 3 (0 : R)) fun j coeff => do
      wr coeff j ((← rd [v0, v1, v2] j) * ((← rd ((List.range 3).map (upDir [v0, v1, v2])) j : Int) : R) /
        (← rd ((List.range 3).map (width [l0, l1, l2] [a, b, c])) j))) =
      .ok ((List.range 3).map fun j => [v0, v1, v2].getD j 0 * (upDir [v0, v1, v2] j : R) /
        width [l0, l1, l2] [a, b, c] j) := by
    apply forUp_fill 3 _ (by simp)
    intro i w hi hw _
    rw [rd_of_lt (by simpa using hi), rd_of_lt (by simpa using hi), rd_of_lt (by simpa using hi)]
    simp only [M.ok_bind, List.getElem_map, List.getElem_range]
    rw [wr_of_lt (by omega), getD_of_lt (by simpa using hi)]
  have hpos : 0 < a * (b * c) := Nat.mul_pos ha (Nat.mul_pos hb hc)
  unfold new
  rw [e1, M.ok_bind]
  dsimp only
  rw [e2, M.ok_bind, e3, M.ok_bind, e4, wr_of_lt (by simpa using hpos), M.ok_bind, e5, M.ok_bind]
  rfl

/-- The object with other fields. -/
abbrev withF (v L : List R) (a b c : Nat) (f old : List R) : UpwindAcc R :=
  { built v L a b c with f := f, fOld := old }

variable {v L : List R} {a b c : Nat} {f old : List R}

theorem rankOf3 (a b c x y z : Nat) : rankOf [a, b, c] [x, y, z] = b * c * x + c * y + z := by
  simp [rankOf]; ring

theorem cellAt3 (a b c i : Nat) : cellAt [a, b, c] i = [i / (b * c) % a, i / c % b, i % c] := by
  simp [cellAt, digitsOf, strideR]

theorem intDiv_nat {m n : Nat} (hm : m < 2 ^ 31) (hn : 0 < n) : intDiv (m : Int) (n : Int) = .ok ((m / n : Nat) : Int) := by
  have : m / n ≤ m := Nat.div_le_self m n
  unfold intDiv
  rw [if_neg (by omega), show (m : Int).tdiv (n : Int) = ((m / n : Nat) : Int) from rfl, mkInt_nat (by omega)]

theorem intMod_nat {m n : Nat} (hm : m < 2 ^ 31) (hn : 0 < n) : intMod (m : Int) (n : Int) = .ok ((m % n : Nat) : Int) := by
  unfold intMod
  rw [intDiv_nat hm hn]
  rfl

theorem indexSet_body {dp nc inds : List Int} {k : Nat} {i d n q r : Int} (hd : dp[k]? = some d) (hn : nc[k]? = some n)
    (h1 : intDiv i d = .ok q) (h2 : intMod q n = .ok r) (hk : k < inds.length) :
    (do wr inds k (← intMod (← intDiv i (← rd dp k)) (← rd nc k))) = .ok (inds.set k r) := by
  rw [rd_of_some hd, rd_of_some hn, M.ok_bind, h1, M.ok_bind, M.ok_bind, h2, M.ok_bind, wr_of_lt hk]

theorem indexSet_eq (ha : 0 < a) (hb : 0 < b) (hc : 0 < c) {i : Nat} (hi : i < 2 ^ 31) :
    (withF v L a b c f old).indexSet i = .ok (ints (cellAt [a, b, c] i)) := by
  have hbc : 0 < b * c := Nat.mul_pos hb hc
  have d0 : intDiv (i : Int) ((b : Int) * c) = .ok ((i / (b * c) : Nat) : Int) := by
    exact_mod_cast intDiv_nat hi hbc
  have d1 := intDiv_nat (m := i) hi hc
  have d2 : intDiv (i : Int) 1 = .ok (i : Int) := by
    have := intDiv_nat (m := i) (n := 1) hi (by omega)
    rwa [Nat.div_one] at this
  have q0 : i / (b * c) ≤ i := Nat.div_le_self _ _
  have q1 : i / c ≤ i := Nat.div_le_self _ _
  have r0 := intMod_nat (m := i / (b * c)) (n := a) (by omega) ha
  have r1 := intMod_nat (m := i / c) (n := b) (by omega) hb
  have r2 := intMod_nat (m := i) (n := c) (by omega) hc
  unfold indexSet
  simp only [built]
  rw [forUp_fill 3 _ (by simp) (fun k => (ints (cellAt [a, b, c] i)).getD k 0)]
  · rw [cellAt3]; rfl
  · intro k w hk hw _
    simp only [hk, if_true]
    rw [cellAt3]
    have hk3 : k = 0 ∨ k = 1 ∨ k = 2 := by omega
    rcases hk3 with rfl | rfl | rfl
    · exact indexSet_body rfl rfl d0 r0 (by omega)
    · exact indexSet_body rfl rfl d1 r1 (by omega)
    · exact indexSet_body rfl rfl d2 r2 (by omega)

theorem flatTerm_self {s : UpwindAcc R} {inds : List Int} {k : Nat} {x n u d y r : Int} (hx : inds[k]? = some x)
    (hn : s.numCells[k]? = some n) (hu : s.upDirection[k]? = some u) (hd : s.dimProd[k]? = some d)
    (h1 : mkInt (x + u) = .ok (x + u)) (h2 : mkInt (x + u + n) = .ok (x + u + n))
    (h3 : intMod (x + u + n) n = .ok y) (h4 : mkInt (d * y) = .ok r) : s.flatTerm inds k k = .ok r := by
  unfold flatTerm
  rw [rd_of_some hx, rd_of_some hn, rd_of_some hu, rd_of_some hd]
  simp only [M.ok_bind, if_true, h1, h2, h3, h4]

theorem flatTerm_other {s : UpwindAcc R} {inds : List Int} {k j : Nat} {x d r : Int} (hj : j ≠ k)
    (hx : inds[j]? = some x) (hd : s.dimProd[j]? = some d) (h4 : mkInt (d * x) = .ok r) :
    s.flatTerm inds k j = .ok r := by
  unfold flatTerm
  rw [rd_of_some hx, rd_of_some hd]
  simp only [M.ok_bind, if_neg hj, h4]

theorem upIndex_of {s : UpwindAcc R} {inds : List Int} {k : Nat} {x y z p q : Int} (h0 : s.flatTerm inds k 0 = .ok x)
    (h1 : s.flatTerm inds k 1 = .ok y) (h2 : s.flatTerm inds k 2 = .ok z) (hp : mkInt (x + y) = .ok p)
    (hq : mkInt (p + z) = .ok q) : s.upIndex inds k = .ok q := by
  unfold upIndex
  rw [h0, M.ok_bind, h1, M.ok_bind, hp, M.ok_bind, h2, M.ok_bind, hq]

theorem axisData_of {s : UpwindAcc R} {inds : List Int} {k : Nat} {q : Int} {w : R} (hk : k < s.ndims)
    (h : s.upIndex inds k = .ok q) (hc : s.coeff[k]? = some w) : s.axisData inds k = .ok (w, q) := by
  unfold axisData
  rw [if_pos hk, h, M.ok_bind, rd_of_some hc]
  rfl

/-- Index and coefficient of axis `k`. -/
theorem axisData_eq (hp : a * (b * c) < 2 ^ 31)
    (hax : a < 2 ^ 30 ∧ b < 2 ^ 30 ∧ c < 2 ^ 30) {g : List Nat} (hg : InGrid [a, b, c] g) {k : Nat} (hk : k < 3) :
    (withF v L a b c f old).axisData (ints g) k =
      .ok (v.getD k 0 * (upDir v k : R) / width L [a, b, c] k,
        (rankOf [a, b, c] (neighbour [a, b, c] k (upDir v k) g) : Int)) := by
  obtain ⟨x, y, z, hgx⟩ : ∃ x y z, g = [x, y, z] := by
    match g, hg.length_eq with
    | [x, y, z], _ => exact ⟨x, y, z, rfl⟩
  obtain ⟨hx, hy, hz, _⟩ : InGrid [a, b, c] [x, y, z] := hgx ▸ hg
  have hn := neighbour_inGrid hg k (upDir v k)
  have hr := rankOf_lt hn
  have hr' : rankOf [a, b, c] (neighbour [a, b, c] k (upDir v k) g) < a * (b * c) := by simpa using hr
  have hs := upDir_cases v k
  generalize hsd : upDir v k = s at *
  -- moving along an axis
  have shift : ∀ {t n : Nat}, t < n → n < 2 ^ 30 → mkInt ((t : Int) + s) = .ok ((t : Int) + s) ∧
      mkInt ((t : Int) + s + n) = .ok ((t : Int) + s + n) ∧
      intMod ((t : Int) + s + n) n = .ok ((((t : Int) + s) % n).toNat : Int) := by
    intro t n ht hn
    have hnn : 0 ≤ (t : Int) + s + n := by omega
    obtain ⟨w, hw⟩ := Int.eq_ofNat_of_zero_le hnn
    refine ⟨mkInt_ok (by rw [intLim_eq]; omega) (by rw [intLim_eq]; omega),
      mkInt_ok (by rw [intLim_eq]; omega) (by rw [intLim_eq]; omega), ?_⟩
    rw [hw, intMod_nat (by omega) (by omega)]
    congr 1
    have : ((t : Int) + s) % n = (w : Int) % n := by rw [← hw, Int.add_emod_right]
    rw [this]
    rfl
  have hk3 : k = 0 ∨ k = 1 ∨ k = 2 := by omega
  have hcoeff : (withF v L a b c f old).coeff[k]? = some (v.getD k 0 * (s : R) / width L [a, b, c] k) := by
    simp only [built, List.getElem?_map, List.getElem?_range hk, Option.map_some, hsd]
  have hup : (withF v L a b c f old).upDirection[k]? = some s := by
    simp only [built, List.getElem?_map, List.getElem?_range hk, Option.map_some, hsd]
  have fin : ∀ {x y z : Nat}, rankOf [a, b, c] (neighbour [a, b, c] k s g) = b * c * x + c * y + z →
      (withF v L a b c f old).flatTerm (ints g) k 0 = .ok ((b * c * x : Nat) : Int) →
      (withF v L a b c f old).flatTerm (ints g) k 1 = .ok ((c * y : Nat) : Int) →
      (withF v L a b c f old).flatTerm (ints g) k 2 = .ok (z : Int) →
      (withF v L a b c f old).axisData (ints g) k = .ok (v.getD k 0 * (s : R) / width L [a, b, c] k,
        (rankOf [a, b, c] (neighbour [a, b, c] k s g) : Int)) := by
    intro x y z e h0 h1 h2
    rw [e] at hr'
    have t4 : mkInt (((b * c * x : Nat) : Int) + ((c * y : Nat) : Int)) = .ok ((b * c * x + c * y : Nat) : Int) := by
      exact mkInt_of (n := b * c * x + c * y) (by push_cast; ring) (by omega)
    have t5 : mkInt (((b * c * x + c * y : Nat) : Int) + (z : Int)) = .ok ((b * c * x + c * y + z : Nat) : Int) := by
      exact mkInt_of (n := b * c * x + c * y + z) (by push_cast; ring) (by omega)
    rw [e]
    exact axisData_of hk (upIndex_of h0 h1 h2 t4 t5) hcoeff
  subst hgx
  have hk3 : k = 0 ∨ k = 1 ∨ k = 2 := by omega
  rcases hk3 with rfl | rfl | rfl
  · obtain ⟨s1, s2, s3⟩ := shift hx hax.1
    have e : neighbour [a, b, c] 0 s [x, y, z] = [(((x : Int) + s) % a).toNat, y, z] := rfl
    have hr2 := hr'
    rw [e, rankOf3] at hr2
    refine fin (x := (((x : Int) + s) % a).toNat) (y := y) (z := z) (by rw [e, rankOf3]) ?_ ?_ ?_
    · exact flatTerm_self rfl rfl hup rfl s1 s2 s3 (by
        exact mkInt_of (n := b * c * (((x : Int) + s) % a).toNat) (by push_cast; ring) (by omega))
    · exact flatTerm_other (by decide) rfl rfl (by exact mkInt_of (n := c * y) (by push_cast; ring) (by omega))
    · exact flatTerm_other (by decide) rfl rfl (by rw [one_mul]; exact mkInt_nat (by omega))
  · obtain ⟨s1, s2, s3⟩ := shift hy hax.2.1
    have e : neighbour [a, b, c] 1 s [x, y, z] = [x, (((y : Int) + s) % b).toNat, z] := rfl
    have hr2 := hr'
    rw [e, rankOf3] at hr2
    refine fin (x := x) (y := (((y : Int) + s) % b).toNat) (z := z) (by rw [e, rankOf3]) ?_ ?_ ?_
    · exact flatTerm_other (by decide) rfl rfl (by exact mkInt_of (n := b * c * x) (by push_cast; ring) (by omega))
    · exact flatTerm_self rfl rfl hup rfl s1 s2 s3 (by
        exact mkInt_of (n := c * (((y : Int) + s) % b).toNat) (by push_cast; ring) (by omega))
    · exact flatTerm_other (by decide) rfl rfl (by rw [one_mul]; exact mkInt_nat (by omega))
  · obtain ⟨s1, s2, s3⟩ := shift hz hax.2.2
    have e : neighbour [a, b, c] 2 s [x, y, z] = [x, y, (((z : Int) + s) % c).toNat] := rfl
    have hr2 := hr'
    rw [e, rankOf3] at hr2
    refine fin (x := x) (y := y) (z := (((z : Int) + s) % c).toNat) (by rw [e, rankOf3]) ?_ ?_ ?_
    · exact flatTerm_other (by decide) rfl rfl (by exact mkInt_of (n := b * c * x) (by push_cast; ring) (by omega))
    · exact flatTerm_other (by decide) rfl rfl (by exact mkInt_of (n := c * y) (by push_cast; ring) (by omega))
    · exact flatTerm_self rfl rfl hup rfl s1 s2 s3 (by
        rw [one_mul]; exact mkInt_nat (n := (((z : Int) + s) % c).toNat) (by omega))

/-- Coefficient of axis `j` as used by the offloaded versions. -/
def accCoeff (dt : R) (v L : List R) (N : List Nat) (j : Nat) : R := dt * (v.getD j 0 * (upDir v j : R) / width L N j)

/-- Grids of the offloaded versions. -/
structure Good3 (a b c : Nat) : Prop where
  ha : 0 < a
  hb : 0 < b
  hc : 0 < c
  cells : a * (b * c) < 2 ^ 31
  axes : a < 2 ^ 30 ∧ b < 2 ^ 30 ∧ c < 2 ^ 30

theorem prod3 (a b c : Nat) : [a, b, c].prod = a * (b * c) := by simp

theorem Good3.pos {a b c : Nat} (h : Good3 a b c) : ∀ n ∈ [a, b, c], 0 < n := by
  simpa using ⟨h.ha, h.hb, h.hc⟩

theorem axesProg_succ (h : Good3 a b c) (dt : R) {g : List Nat} (hgr : InGrid [a, b, c] g) (n : Nat) {j : Nat} (hj : j < 3) :
    (withF v L a b c f old).axesProg dt (rankOf [a, b, c] g) (ints g) (n + 1) j =
      .read (.oldF, rankOf [a, b, c] (neighbour [a, b, c] j (upDir v j) g)) fun p =>
        .read (.oldF, rankOf [a, b, c] g) fun q => .read (.f, rankOf [a, b, c] g) fun x =>
          .write (.f, rankOf [a, b, c] g) (x - accCoeff dt v L [a, b, c] j * (p - q))
            ((withF v L a b c f old).axesProg dt (rankOf [a, b, c] g) (ints g) n (j + 1)) := by
  rw [axesProg, axisData_eq h.cells h.axes hgr hj]
  simp only
  rw [if_neg (by omega), Int.toNat_natCast]
  rfl

theorem axesProg_safe (h : Good3 a b c) (dt : R) {g : List Nat} (hgr : InGrid [a, b, c] g) {k : Nat} (hk : k % 2 ≠ 0) :
    ∀ n j, j + n = 3 → Safe (owners k) (gridAlloc (a * (b * c))) (rankOf [a, b, c] g)
      ((withF v L a b c f old).axesProg dt (rankOf [a, b, c] g) (ints g) n j)
  | 0, _, _ => .done
  | n + 1, j, hj => by
    have hr := rankOf_lt hgr
    have hr2 := rankOf_lt (neighbour_inGrid hgr j (upDir v j))
    rw [prod3] at hr hr2
    rw [axesProg_succ h dt hgr n (by omega)]
    refine .read hr2 (Or.inl (by simp [owners, hk])) fun a => .read hr (Or.inl (by simp [owners, hk])) fun b =>
      .read hr (Or.inr (by simp [owners, hk])) fun x => .write hr (by simp [owners, hk]) ?_
    exact axesProg_safe h dt hgr hk n (j + 1) (by omega)

theorem axesProg_len (h : Good3 a b c) (dt : R) {g : List Nat} (hgr : InGrid [a, b, c] g) :
    ∀ n j, j + n = 3 →
      ((withF v L a b c f old).axesProg dt (rankOf [a, b, c] g) (ints g) n j).LenLe (4 * n)
  | 0, _, _ => .done _
  | n + 1, j, hj => by
    rw [axesProg_succ h dt hgr n (by omega)]
    exact .read fun a => .read fun b => .read fun x => .write (axesProg_len h dt hgr n (j + 1) (by omega))

theorem axesProg_run (h : Good3 a b c) (dt : R) {u : List Nat → R} {g : List Nat}
    (hgr : InGrid [a, b, c] g) : ∀ n j, j + n = 3 → ∀ m : Mem UpLoc R,
    (∀ g, InGrid [a, b, c] g → m (.oldF, rankOf [a, b, c] g) = u g) →
    ((withF v L a b c f old).axesProg dt (rankOf [a, b, c] g) (ints g) n j).run m (.f, rankOf [a, b, c] g) =
      (List.range' j n).foldl
        (fun acc j => acc - accCoeff dt v L [a, b, c] j * (u (neighbour [a, b, c] j (upDir v j) g) - u g))
        (m (.f, rankOf [a, b, c] g))
  | 0, _, _, m, _ => rfl
  | n + 1, j, hj, m, hm => by
    rw [axesProg_succ h dt hgr n (by omega)]
    simp only [Prog.run, List.range'_succ, List.foldl_cons]
    rw [axesProg_run h dt hgr n (j + 1) (by omega)]
    · simp only [Mem.set, if_true]
      rw [hm g hgr, hm _ (neighbour_inGrid hgr j (upDir v j))]
    · intro g' hg'
      simp [Mem.set, hm g' hg']

theorem cellProg_eq (h : Good3 a b c) (dt : R) {i : Nat} (hi : i < a * (b * c)) :
    (withF v L a b c f old).cellProg dt i =
      (withF v L a b c f old).axesProg dt (rankOf [a, b, c] (cellAt [a, b, c] i)) (ints (cellAt [a, b, c] i)) 3 0 := by
  rw [cellProg, indexSet_eq h.ha h.hb h.hc (by have := h.cells; omega), rankOf_cellAt h.pos (by rwa [prod3])]

theorem ntot_eq : (withF v L a b c f old).ntot.toNat = a * (b * c) := by
  change ((a : Int) * (b * c)).toNat = _
  rw [show (a : Int) * (b * c) = ((a * (b * c) : Nat) : Int) by push_cast; rfl, Int.toNat_natCast]

theorem cell_safe (h : Good3 a b c) (dt : R) {k i : Nat} (hk : k % 2 ≠ 0) (hi : i < a * (b * c)) :
    Safe (owners k) (gridAlloc (a * (b * c))) i ((withF v L a b c f old).cellProg dt i) := by
  have := axesProg_safe (v := v) (L := L) (f := f) (old := old) h dt (cellAt_inGrid h.pos i) hk 3 0 (by omega)
  rw [← cellProg_eq h dt hi, rankOf_cellAt h.pos (by rwa [prod3])] at this
  exact this

theorem cell_len (h : Good3 a b c) (dt : R) {i : Nat} (hi : i < a * (b * c)) :
    ((withF v L a b c f old).cellProg dt i).LenLe 12 := by
  rw [cellProg_eq h dt hi]
  exact axesProg_len h dt (cellAt_inGrid h.pos i) 3 0 (by omega)

theorem cell_run (h : Good3 a b c) (dt : R) {u : List Nat → R} {g : List Nat} (hgr : InGrid [a, b, c] g)
    (m : Mem UpLoc R) (hm : ∀ g, InGrid [a, b, c] g → m (.oldF, rankOf [a, b, c] g) = u g)
    (hf : m (.f, rankOf [a, b, c] g) = u g) :
    ((withF v L a b c f old).cellProg dt (rankOf [a, b, c] g)).run m (.f, rankOf [a, b, c] g) =
      upwindStep [a, b, c] (upDir v) (accCoeff dt v L [a, b, c]) u g := by
  have hlt := rankOf_lt hgr
  rw [prod3] at hlt
  rw [cellProg_eq h dt hlt, cellAt_rankOf hgr, axesProg_run h dt hgr 3 0 (by omega) m hm, hf]
  rw [upwindStep, List.range_eq_range']
  rfl

theorem region1_raceFree (h : Good3 a b c) (dt : R) :
    RaceFree ((withF v L a b c f old).region1 dt) (gridAlloc (a * (b * c))) (fun _ => owners 1) where
  safe := by
    intro p i hp hi
    rw [region1, ntot_eq] at hi
    exact cell_safe h dt (by decide) hi

theorem region2_raceFree (h : Good3 a b c) (k : Int) (dt : R) :
    RaceFree ((withF v L a b c f old).region2 k dt) (gridAlloc (a * (b * c))) owners where
  safe := by
    intro p i hp hi
    have hi : i < a * (b * c) := by
      rw [region2, ntot_eq] at hi
      exact hi
    simp only [region2]
    split
    · next h =>
      exact .read hi (Or.inl (by simp [owners, h])) fun x => .write hi (by simp [owners, h]) .done
    · next hk => exact cell_safe h dt hk hi

theorem region1_seq (h : Good3 a b c) (dt : R) {u : List Nat → R} (m : Mem UpLoc R)
    (hm : ∀ r g, InGrid [a, b, c] g → m (r, rankOf [a, b, c] g) = u g) {g : List Nat} (hgr : InGrid [a, b, c] g) :
    ((withF v L a b c f old).region1 dt).seq m (.f, rankOf [a, b, c] g) =
      upwindStep [a, b, c] (upDir v) (accCoeff dt v L [a, b, c]) u g := by
  have hlt := rankOf_lt hgr
  rw [prod3] at hlt
  have e : ((withF v L a b c f old).region1 dt).seq m = ((withF v L a b c f old).region1 dt).seqPhase 0 m := rfl
  rw [e, seqPhase_eq (region1_raceFree h dt) (Nat.zero_lt_one)]
  have e2 : ((withF v L a b c f old).region1 dt).count 0 = a * (b * c) :=
    ntot_eq (v := v) (L := L) (f := f) (old := old)
  simp only [phaseMem, owners, e2, if_pos hlt]
  rw [if_neg (by decide)]
  simp only [if_pos hlt]
  exact cell_run h dt hgr m (hm .oldF) (hm .f g hgr)

/-- The memory after `2 n` loops holds the field after `n` steps. -/
theorem region2_memAt (h : Good3 a b c) (k : Int) (dt : R) {u : List Nat → R} (m : Mem UpLoc R)
    (hm : ∀ g, InGrid [a, b, c] g → m (.f, rankOf [a, b, c] g) = u g) : ∀ n, n ≤ k.toNat → ∀ g, InGrid [a, b, c] g →
      ((withF v L a b c f old).region2 k dt).memAt (2 * n) m (.f, rankOf [a, b, c] g) =
        (upwindStep [a, b, c] (upDir v) (accCoeff dt v L [a, b, c]))^[n] u g := by
  intro n
  have hr := region2_raceFree (v := v) (L := L) (f := f) (old := old) h k dt
  have e2 : ∀ p, ((withF v L a b c f old).region2 k dt).count p = a * (b * c) :=
    fun _ => ntot_eq (v := v) (L := L) (f := f) (old := old)
  induction n with
  | zero => intro _; exact hm
  | succ n ih =>
    intro hn g hgr
    have ih' := ih (by omega)
    rw [show 2 * (n + 1) = 2 * n + 1 + 1 by omega, Region.memAt_succ, Region.memAt_succ,
      seqPhase_eq hr (by simp only [region2]; omega), seqPhase_eq hr (by simp only [region2]; omega),
      Function.iterate_succ_apply']
    generalize ((withF v L a b c f old).region2 k dt).memAt (2 * n) m = m0 at ih' ⊢
    generalize (upwindStep [a, b, c] (upDir v) (accCoeff dt v L [a, b, c]))^[n] u = w at ih' ⊢
    -- the copy
    have h1 : ∀ g, InGrid [a, b, c] g →
        phaseMem ((withF v L a b c f old).region2 k dt) owners (2 * n) m0 (.oldF, rankOf [a, b, c] g) = w g := by
      intro g hg'
      have hlt := rankOf_lt hg'
      rw [prod3] at hlt
      simp only [phaseMem, owners, e2, Nat.mul_mod_right, if_true, if_pos hlt]
      simp [region2, copyProg, Prog.run, Mem.set, ih' g hg']
    have h2 : ∀ g, InGrid [a, b, c] g →
        phaseMem ((withF v L a b c f old).region2 k dt) owners (2 * n) m0 (.f, rankOf [a, b, c] g) = w g := by
      intro g hg'
      simp only [phaseMem, owners, Nat.mul_mod_right, if_true]
      exact ih' g hg'
    generalize phaseMem ((withF v L a b c f old).region2 k dt) owners (2 * n) m0 = m1 at h1 h2 ⊢
    -- the update
    have hodd : (2 * n + 1) % 2 ≠ 0 := by omega
    have hlt := rankOf_lt hgr
    rw [prod3] at hlt
    have e3 : ((withF v L a b c f old).region2 k dt).prog (2 * n + 1) (rankOf [a, b, c] g) =
        (withF v L a b c f old).cellProg dt (rankOf [a, b, c] g) := by
      simp only [region2, if_neg hodd]
    simp only [phaseMem, owners, e2, if_neg hodd, if_pos hlt, e3]
    exact cell_run h dt hgr m1 h1 (h2 g hgr)

/-- With exact arithmetic the coefficients are those of the threaded version. -/
theorem accCoeff_eq {K : Type} [Field K] [LinearOrder K] (dt : K) (v L : List K) (N : List Nat) (j : Nat) :
    accCoeff dt v L N j = upCoeff dt v L N j := by
  simp only [accCoeff, upCoeff, width, cellWidth, Int.cast_natCast]
  ring

end UpwindAcc
end Fidi
