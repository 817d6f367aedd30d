import Verif.Spec.Rounding
import Verif.Spec.UpwindOther
import Verif.Lemmas.UpwindExact

/-
Rounding errors of the upwind schemes.
-/
set_option linter.unusedSectionVars false

namespace Fidi
open Fidi.Spec Finset

section rel
variable {K : Type} [Field K] [LinearOrder K] [IsStrictOrderedRing K]

/-- `x` is `y` up to the relative error `e`. -/
def Rel (e x y : K) : Prop := |x - y| ≤ e * |y|

theorem Rel.refl (x : K) : Rel 0 x x := by simp [Rel]

theorem Rel.mono {e e' x y : K} (h : Rel e x y) (he : e ≤ e') : Rel e' x y :=
  h.trans (mul_le_mul_of_nonneg_right he (abs_nonneg _))

theorem Rel.abs_le {e x y : K} (h : Rel e x y) : |x| ≤ (1 + e) * |y| := by
  have h1 : |x| ≤ |x - y| + |y| := by
    have := abs_add_le (x - y) y
    rwa [sub_add_cancel] at this
  unfold Rel at h
  linarith

theorem Rel.trans {a b x y z : K} (hb0 : 0 ≤ b) (h : Rel b z x) (h' : Rel a x y) : Rel (a + b + a * b) z y := by
  have h1 := h'.abs_le
  have h2 : |z - y| ≤ |z - x| + |x - y| := by
    have := abs_add_le (z - x) (x - y)
    rwa [sub_add_sub_cancel] at this
  have h3 : b * |x| ≤ b * ((1 + a) * |y|) := mul_le_mul_of_nonneg_left h1 hb0
  unfold Rel at *
  nlinarith

theorem Rel.mul {a b x y x' y' : K} (ha : 0 ≤ a) (h : Rel a x y) (h' : Rel b x' y') :
    Rel (a + b + a * b) (x * x') (y * y') := by
  have e : x * x' - y * y' = (x - y) * x' + y * (x' - y') := by ring
  have h2 : |x * x' - y * y'| ≤ |x - y| * |x'| + |y| * |x' - y'| := by
    rw [e, ← abs_mul, ← abs_mul]; exact abs_add_le _ _
  have h3 : |x - y| * |x'| ≤ (a * |y|) * ((1 + b) * |y'|) :=
    mul_le_mul h h'.abs_le (abs_nonneg _) (mul_nonneg ha (abs_nonneg _))
  have h4 : |y| * |x' - y'| ≤ |y| * (b * |y'|) := mul_le_mul_of_nonneg_left h' (abs_nonneg _)
  unfold Rel
  rw [abs_mul]
  nlinarith

theorem Rel.div {a b x y x' y' : K} (hb1 : b < 1) (h : Rel a x y) (h' : Rel b x' y') :
    Rel ((a + b) / (1 - b)) (x / x') (y / y') := by
  by_cases hy : y' = 0
  · have : x' = 0 := by
      unfold Rel at h'
      rw [hy, abs_zero, mul_zero, sub_zero] at h'
      exact abs_eq_zero.1 (le_antisymm h' (abs_nonneg _))
    simp [Rel, this, hy]
  · have hyp : 0 < |y'| := abs_pos.2 hy
    have hx' : (1 - b) * |y'| ≤ |x'| := by
      have : |y'| ≤ |y' - x'| + |x'| := by
        have := abs_add_le (y' - x') x'
        rwa [sub_add_cancel] at this
      rw [abs_sub_comm] at this
      unfold Rel at h'
      linarith
    have h1b : 0 < 1 - b := sub_pos.2 hb1
    have hxp : 0 < |x'| := lt_of_lt_of_le (mul_pos h1b hyp) hx'
    have hx0 : x' ≠ 0 := abs_pos.1 hxp
    have e : x / x' - y / y' = (x * y' - y * x') / (x' * y') := by field_simp
    have e2 : x * y' - y * x' = (x - y) * y' - y * (x' - y') := by ring
    have hn : |x * y' - y * x'| ≤ (a + b) * (|y| * |y'|) := by
      rw [e2]
      have h1 := abs_sub ((x - y) * y') (y * (x' - y'))
      rw [abs_mul, abs_mul] at h1
      have h3 : |x - y| * |y'| ≤ (a * |y|) * |y'| := mul_le_mul_of_nonneg_right h (abs_nonneg _)
      have h4 : |y| * |x' - y'| ≤ |y| * (b * |y'|) := mul_le_mul_of_nonneg_left h' (abs_nonneg _)
      nlinarith
    unfold Rel
    have e1 : (a + b) / (1 - b) * |y / y'| = ((a + b) * (|y| * |y'|)) / ((1 - b) * |y'| * |y'|) := by
      rw [abs_div]; field_simp
    rw [e, e1, abs_div, abs_mul x' y']
    have hnn : 0 ≤ (a + b) * (|y| * |y'|) := le_trans (abs_nonneg _) hn
    calc |x * y' - y * x'| / (|x'| * |y'|) ≤ ((a + b) * (|y| * |y'|)) / (|x'| * |y'|) :=
          div_le_div_of_nonneg_right hn (mul_pos hxp hyp).le
      _ ≤ _ := div_le_div_of_nonneg_left hnn (mul_pos (mul_pos h1b hyp) hyp)
          (mul_le_mul_of_nonneg_right hx' hyp.le)

end rel

section change
variable {R K : Type} [Zero R] [One R] [Add R] [Sub R] [Mul R] [Div R] [NatCast R] [IntCast R] [LT R] [DecidableLT R]
  [Field K] [LinearOrder K] [IsStrictOrderedRing K] {val : R → K} {r η tiny : K}

theorem Spec.Normal.of_rel {e x y : K} (h : Rel e x y) (he : e ≤ 1 / 2) (hn : Normal tiny y) :
    x = 0 ∨ tiny ≤ |x| := by
  rcases hn with hn | hn
  · left
    unfold Rel at h
    rw [hn, abs_zero, mul_zero, sub_zero] at h
    exact abs_eq_zero.1 (le_antisymm h (abs_nonneg _))
  · right
    have : |y| ≤ |y - x| + |x| := by
      have := abs_add_le (y - x) x
      rwa [sub_add_cancel] at this
    rw [abs_sub_comm] at this
    have h2 : |x - y| ≤ 1 / 2 * |y| := h.mono he
    linarith

/-- A product, `p r` and `q r` being the errors of the factors. -/
theorem mul_rel (H : Rounded R K val r η tiny) {x y : R} {X Y p q t : K} (hp : 0 ≤ p) (hq : 0 ≤ q)
    (hx : Rel (p * r) (val x) X) (hy : Rel (q * r) (val y) Y) (hn : Normal tiny (X * Y))
    (ht : p + q + 1 + (p * q + p + q + p * q / 100) / 100 ≤ t) (hs : p + q + p * q / 100 ≤ 50) :
    Rel (t * r) (val (x * y)) (X * Y) := by
  have h0 := H.r_nonneg
  have h1 := H.r_le
  have hpq := mul_nonneg hp hq
  have hr2 : r * r ≤ r / 100 := by nlinarith
  have hr3 : r * r * r ≤ r / 100 / 100 := by nlinarith [mul_nonneg h0 h0]
  have hm := Rel.mul (mul_nonneg hp h0) hx hy
  have hsmall : p * r + q * r + p * r * (q * r) ≤ 1 / 2 := by
    have e : p * r + q * r + p * r * (q * r) = (p + q) * r + p * q * (r * r) := by ring
    rw [e]
    have b1 : (p + q) * r ≤ (p + q) * (1 / 100) := mul_le_mul_of_nonneg_left h1 (by linarith)
    have b2 : p * q * (r * r) ≤ p * q * (1 / 100 / 100) := mul_le_mul_of_nonneg_left (by linarith) hpq
    linarith
  have h := Rel.trans h0 ((H.mul x y).2 (hn.of_rel hm hsmall)) hm
  refine h.mono ?_
  have e1 : p * r + q * r + p * r * (q * r) + r + (p * r + q * r + p * r * (q * r)) * r =
      (p + q + 1) * r + (p * q + p + q) * (r * r) + p * q * (r * r * r) := by ring
  rw [e1]
  have a1 : (p * q + p + q) * (r * r) ≤ (p * q + p + q) * (r / 100) := mul_le_mul_of_nonneg_left hr2 (by linarith)
  have a2 : p * q * (r * r * r) ≤ p * q * (r / 100 / 100) := mul_le_mul_of_nonneg_left hr3 hpq
  have a3 := mul_le_mul_of_nonneg_right ht h0
  nlinarith

/-- A quotient of exact operations, `p r` and `q r` being the errors of the terms. -/
theorem quot_rel (H : Rounded R K val r η tiny) {x y X Y p q m : K} (hq : 0 ≤ q)
    (hq' : q ≤ 50) (hx : Rel (p * r) x X) (hy : Rel (q * r) y Y)
    (hm : p + q ≤ m * (1 - q / 100)) (hm0 : 0 ≤ m) : Rel (m * r) (x / y) (X / Y) := by
  have h0 := H.r_nonneg
  have h1 := H.r_le
  have hqr : q * r ≤ q / 100 := by nlinarith
  have hlt : q * r < 1 := by linarith
  refine (Rel.div hlt hx hy).mono ?_
  rw [div_le_iff₀ (by linarith)]
  have : p + q ≤ m * (1 - q * r) := le_trans hm (mul_le_mul_of_nonneg_left (by linarith) hm0)
  nlinarith [mul_le_mul_of_nonneg_right this h0]

/-- A quotient, `p r` and `q r` being the errors of the terms. -/
theorem div_rel (H : Rounded R K val r η tiny) {x y : R} {X Y p q t m : K} (hq : 0 ≤ q)
    (hq' : q ≤ 50) (hx : Rel (p * r) (val x) X) (hy : Rel (q * r) (val y) Y) (hn : Normal tiny (X / Y))
    (hm : p + q ≤ m * (1 - q / 100)) (hm0 : 0 ≤ m) (hm1 : m ≤ 50)
    (ht : m + 1 + m / 100 ≤ t) : Rel (t * r) (val (x / y)) (X / Y) := by
  have h0 := H.r_nonneg
  have h1 := H.r_le
  have h2 := quot_rel H hq hq' hx hy hm hm0
  have hmr : m * r ≤ 1 / 2 := by nlinarith
  refine (Rel.trans h0 ((H.div x y).2 (hn.of_rel h2 hmr)) h2).mono ?_
  have hr2 : r * r ≤ r / 100 := by nlinarith
  have := mul_le_mul_of_nonneg_left hr2 hm0
  have a3 := mul_le_mul_of_nonneg_right ht h0
  nlinarith

theorem self_rel (x : R) : Rel (0 * r) (val x) (val x) := by rw [zero_mul]; exact Rel.refl _

variable {dt : R} {v L : List R} {N : List Nat}

theorem getD_map_val (H : Rounded R K val r η tiny) (l : List R) (j : Nat) : (l.map val).getD j 0 = val (l.getD j 0) := by
  simp only [List.getD_eq_getElem?_getD, List.getElem?_map]
  cases l[j]? with
  | none => simp [H.zero]
  | some x => simp

theorem upDir_val (H : Rounded R K val r η tiny) : upDir (v.map val) = upDir v := by
  funext j
  unfold upDir
  rw [getD_map_val H]
  by_cases h : v.getD j 0 < 0
  · rw [if_pos h, if_pos (by rw [← H.zero]; exact (H.lt _ _).1 h)]
  · rw [if_neg h, if_neg (by rw [← H.zero]; exact fun h' => h ((H.lt _ _).2 h'))]

theorem dir_rel (H : Rounded R K val r η tiny) (n : Int) : Rel (1 * r) (val (n : R)) (n : K) := by
  rw [one_mul]; exact H.int n

theorem Spec.Normal.congr_abs {x y : K} (h : |x| = |y|) (hx : Normal tiny x) : Normal tiny y := by
  rcases hx with hx | hx
  · left; rw [hx, abs_zero] at h; exact abs_eq_zero.1 h.symm
  · right; rw [← h]; exact hx

theorem abs_upDir (j : Nat) : |((upDir v j : Int) : K)| = 1 := by
  unfold upDir
  split <;> simp

theorem width_rel (H : Rounded R K val r η tiny) {n : R} {m : K} (hn : Rel (1 * r) (val n) m)
    (l : R) (hw : Normal tiny (val l / m)) : Rel (21 / 10 * r) (val (l / n)) (val l / m) :=
  div_rel H (m := 102 / 100) zero_le_one (by norm_num) (self_rel _) hn hw (by norm_num) (by norm_num) (by norm_num)
    (by norm_num)

theorem cellWidth_rel (H : Rounded R K val r η tiny) (j : Nat) (hw : Normal tiny (cellWidth (L.map val) N j)) :
    Rel (21 / 10 * r) (val (cellWidth L N j)) (cellWidth (L.map val) N j) := by
  unfold cellWidth at hw ⊢
  rw [getD_map_val H] at hw ⊢
  exact width_rel H (by rw [one_mul]; exact H.nat _) _ hw

/-- `dt*v*s`. -/
theorem dtvs_rel (H : Rounded R K val r η tiny) (x y : R) (n : Int) (hn : |(n : K)| = 1) (hd : Normal tiny (val x * val y)) :
    Rel (31 / 10 * r) (val (x * y * (n : R))) (val x * val y * (n : K)) :=
  mul_rel H (by norm_num) (by norm_num)
    (mul_rel H (t := 1) (le_refl 0) (le_refl 0) (self_rel _) (self_rel _) hd (by norm_num) (by norm_num)) (dir_rel H n)
    (hd.congr_abs (by rw [abs_mul (val x * val y), hn, mul_one])) (by norm_num) (by norm_num)

/-- The coefficient as in upwind.cxx. -/
theorem coeff_cpp_rel (H : Rounded R K val r η tiny)
    (hN : NormalCoeffs tiny (val dt) (v.map val) (L.map val) N) {j : Nat} (hj : j < N.length) :
    Rel (65 / 10 * r) (val (upCoeff dt v L N j)) (upCoeff (val dt) (v.map val) (L.map val) N j) := by
  have h1 := hN.distance j hj
  have h2 := hN.fraction j hj
  have h3 := hN.width j hj
  unfold upCoeff
  rw [upDir_val H]
  rw [getD_map_val H] at h1 h2 ⊢
  exact div_rel H (p := 31 / 10) (q := 21 / 10) (m := 54 / 10) (by norm_num) (by norm_num)
    (dtvs_rel H _ _ _ (abs_upDir j) h1) (cellWidth_rel H j h3)
    (h2.congr_abs (by rw [abs_div, abs_div, abs_mul (_ * _) ((upDir v j : Int) : K), abs_upDir, mul_one]))
    (by norm_num) (by norm_num) (by norm_num) (by norm_num)

/-- The coefficient `dt*(v*s/width)`. -/
theorem coeff_python_rel (H : Rounded R K val r η tiny)
    (hN : NormalCoeffs tiny (val dt) (v.map val) (L.map val) N) {j : Nat} (hj : j < N.length) {w : R}
    (hw : Rel (21 / 10 * r) (val w) (cellWidth (L.map val) N j)) :
    Rel (65 / 10 * r) (val (dt * (v.getD j 0 * (upDir v j : R) / w))) (upCoeff (val dt) (v.map val) (L.map val) N j) := by
  have h1 := hN.velocity j hj
  have h2 := hN.rate j hj
  have h3 := hN.fraction j hj
  have e : upCoeff (val dt) (v.map val) (L.map val) N j =
      val dt * (val (v.getD j 0) * (upDir v j : K) / cellWidth (L.map val) N j) := by
    unfold upCoeff
    rw [upDir_val H, getD_map_val H]
    ring
  rw [e]
  rw [getD_map_val H] at h1 h2 h3
  have hs : |((upDir v j : Int) : K)| = 1 := abs_upDir j
  refine mul_rel H (p := 0) (q := 54 / 10) (le_refl _) (by norm_num) (self_rel _) ?_
    (h3.congr_abs (by rw [abs_div, abs_mul, abs_mul (val dt), abs_div, abs_mul (val _), hs]; ring)) (by norm_num) (by norm_num)
  refine div_rel H (p := 205 / 100) (q := 21 / 10) (m := 43 / 10) (by norm_num) (by norm_num) ?_ hw
    (h2.congr_abs (by rw [abs_div, abs_div, abs_mul, hs, mul_one])) (by norm_num) (by norm_num) (by norm_num) (by norm_num)
  exact mul_rel H (le_refl 0) zero_le_one (self_rel _) (dir_rel H _)
    (h1.congr_abs (by rw [abs_mul, hs, mul_one])) (by norm_num) (by norm_num)

/-- What the change of an axis, with coefficient `c`, must satisfy. -/
def ChangeOk (val : R → K) (r z : K) (c : Nat → K) (d : Nat) (chg : Nat → R → R → R) : Prop :=
  ∀ j, j < d → ∀ a b, |val (chg j a b) - c j * (val a - val b)| ≤ 9 * r * |c j * (val a - val b)| + z

/-- A computed coefficient times the computed difference. -/
theorem product_change (H : Rounded R K val r η tiny) {x a b : R} {c : K} (hc : |c| ≤ 1) (hx : Rel (65 / 10 * r) (val x) c) :
    |val (x * (a - b)) - c * (val a - val b)| ≤ 9 * r * |c * (val a - val b)| + 3 * η := by
  have h0 := H.r_nonneg
  have h1 := H.r_le
  have hη := H.η_nonneg
  set D := val a - val b with hD
  set y := val (a - b) with hy
  have hd : |y - D| ≤ r * |D| + η := (H.sub a b).1
  have hxa : |val x| ≤ (1 + 65 / 10 * r) * |c| := hx.abs_le
  have hxc : |val x - c| ≤ 65 / 10 * r * |c| := hx
  have e : val x * y - c * D = val x * (y - D) + (val x - c) * D := by ring
  have hp : |val x * y - c * D| ≤ (1 + 65 / 10 * r) * |c| * (r * |D| + η) + 65 / 10 * r * |c| * |D| := by
    rw [e]
    refine (abs_add_le _ _).trans ?_
    rw [abs_mul, abs_mul]
    exact add_le_add (mul_le_mul hxa hd (abs_nonneg _) (mul_nonneg (by linarith) (abs_nonneg _)))
      (mul_le_mul_of_nonneg_right hxc (abs_nonneg _))
  have hr := (H.mul x (a - b)).1
  rw [← hy] at hr
  have h5 : |val x * y| ≤ |val x * y - c * D| + |c * D| := by
    have := abs_add_le (val x * y - c * D) (c * D)
    rwa [sub_add_cancel] at this
  have h6 : |val (x * (a - b)) - c * D| ≤ |val (x * (a - b)) - val x * y| + |val x * y - c * D| := by
    have := abs_add_le (val (x * (a - b)) - val x * y) (val x * y - c * D)
    rwa [sub_add_sub_cancel] at this
  have hcD : |c * D| = |c| * |D| := abs_mul c D
  rw [hcD] at h5 ⊢
  set C := |c| * |D| with hC
  have hC0 : 0 ≤ C := mul_nonneg (abs_nonneg _) (abs_nonneg _)
  have hcη : |c| * η ≤ η := by nlinarith
  have hcη0 : 0 ≤ |c| * η := mul_nonneg (abs_nonneg _) hη
  have hp2 : |val x * y - c * D| ≤ 757 / 100 * r * C + 107 / 100 * η := by
    refine hp.trans ?_
    have e2 : (1 + 65 / 10 * r) * |c| * (r * |D| + η) + 65 / 10 * r * |c| * |D| =
        (15 / 2 * r + 65 / 10 * (r * r)) * C + (1 + 65 / 10 * r) * (|c| * η) := by rw [hC]; ring
    rw [e2]
    have b1 : (15 / 2 * r + 65 / 10 * (r * r)) * C ≤ (757 / 100 * r) * C := by
      apply mul_le_mul_of_nonneg_right _ hC0
      nlinarith
    have b2 : (1 + 65 / 10 * r) * (|c| * η) ≤ (107 / 100) * (|c| * η) := mul_le_mul_of_nonneg_right (by linarith) hcη0
    linarith
  have hrC : 0 ≤ r * C := mul_nonneg h0 hC0
  have hrη : r * η ≤ 1 / 100 * η := mul_le_mul_of_nonneg_right h1 hη
  have h7 : r * |val x * y| ≤ r * (757 / 100 * r * C + 107 / 100 * η + C) :=
    mul_le_mul_of_nonneg_left (h5.trans (by linarith)) h0
  have h8 : r * (r * C) ≤ 1 / 100 * (r * C) := mul_le_mul_of_nonneg_right h1 hrC
  have e3 : r * (757 / 100 * r * C + 107 / 100 * η + C) = 757 / 100 * (r * (r * C)) + 107 / 100 * (r * η) + r * C := by ring
  rw [e3] at h7
  have e4 : 9 * r * C = 9 * (r * C) := by ring
  have e5 : 757 / 100 * r * C = 757 / 100 * (r * C) := by ring
  rw [e4]
  rw [e5] at hp2
  linarith

theorem change_cpp (H : Rounded R K val r η tiny) (hN : NormalCoeffs tiny (val dt) (v.map val) (L.map val) N)
    (hc : ∀ j, j < N.length → |upCoeff (val dt) (v.map val) (L.map val) N j| ≤ 1) :
    ChangeOk val r (3 * η) (upCoeff (val dt) (v.map val) (L.map val) N) N.length
      (fun j a b => upCoeff dt v L N j * (a - b)) :=
  fun j hj _ _ => product_change H (hc j hj) (coeff_cpp_rel H hN hj)

theorem change_python (H : Rounded R K val r η tiny) (hN : NormalCoeffs tiny (val dt) (v.map val) (L.map val) N)
    (hc : ∀ j, j < N.length → |upCoeff (val dt) (v.map val) (L.map val) N j| ≤ 1) :
    ChangeOk val r (3 * η) (upCoeff (val dt) (v.map val) (L.map val) N) N.length (changeTimeLast dt v L N) :=
  fun j hj _ _ => product_change H (hc j hj) (coeff_python_rel H hN hj (cellWidth_rel H j (hN.width j hj)))

theorem change_acc (H : Rounded R K val r η tiny) (hN : NormalCoeffs tiny (val dt) (v.map val) (L.map val) N)
    (hc : ∀ j, j < N.length → |upCoeff (val dt) (v.map val) (L.map val) N j| ≤ 1) :
    ChangeOk val r (3 * η) (upCoeff (val dt) (v.map val) (L.map val) N) N.length
      (fun j a b => dt * (v.getD j 0 * (upDir v j : R) / (L.getD j 0 / ((N.getD j 0 : Int) : R))) * (a - b)) := by
  intro j hj a b
  refine product_change H (hc j hj) (coeff_python_rel H hN hj ?_)
  have hw := hN.width j hj
  unfold cellWidth at hw ⊢
  rw [getD_map_val H] at hw ⊢
  exact width_rel H (by rw [one_mul]; have := H.int (N.getD j 0 : Int); rwa [Int.cast_natCast] at this) _ hw

/-- The change of one axis as in the Fortran versions: the underflow of the product is divided by the width. -/
theorem change_fortran (H : Rounded R K val r η tiny) (hN : NormalCoeffs tiny (val dt) (v.map val) (L.map val) N)
    (hc : ∀ j, j < N.length → |upCoeff (val dt) (v.map val) (L.map val) N j| ≤ 1) {z : K}
    (hz : ∀ j, j < N.length → (3 + 2 / |cellWidth (L.map val) N j|) * η ≤ z) :
    ChangeOk val r z (upCoeff (val dt) (v.map val) (L.map val) N) N.length (changeDivLast dt v L N) := by
  intro j hj a b
  have h0 := H.r_nonneg
  have h1 := H.r_le
  have hη := H.η_nonneg
  have hcj := hc j hj
  have e : upCoeff (val dt) (v.map val) (L.map val) N j =
      (val dt * val (v.getD j 0) * (upDir v j : K)) / cellWidth (L.map val) N j := by
    unfold upCoeff
    rw [upDir_val H, getD_map_val H]
  have hdist := hN.distance j hj
  rw [getD_map_val H] at hdist
  have hx := dtvs_rel H dt (v.getD j 0) (upDir v j) (abs_upDir j) hdist
  have hwr := cellWidth_rel H j (hN.width j hj)
  refine le_trans ?_ (add_le_add_right (hz j hj) _)
  rw [e] at hcj ⊢
  unfold changeDivLast
  set p := dt * v.getD j 0 * (upDir v j : R) with hp
  set Q := val dt * val (v.getD j 0) * (upDir v j : K) with hQ
  set w := cellWidth L N j with hw
  set W := cellWidth (L.map val) N j with hW
  set D := val a - val b with hD
  set y := val (a - b) with hy
  by_cases hW0 : W = 0
  · have hw0 : val w = 0 := by
      unfold Rel at hwr
      rw [hW0, abs_zero, mul_zero, sub_zero] at hwr
      exact abs_eq_zero.1 (le_antisymm hwr (abs_nonneg _))
    have := (H.div (p * (a - b)) w).1
    rw [hw0, div_zero, abs_zero, mul_zero, zero_add] at this
    rw [hW0, div_zero, zero_mul, abs_zero, mul_zero, zero_add, div_zero, add_zero]
    exact this.trans (by linarith)
  have hWp : 0 < |W| := abs_pos.2 hW0
  have hd : |y - D| ≤ r * |D| + η := (H.sub a b).1
  have hxa : |val p| ≤ (1 + 31 / 10 * r) * |Q| := hx.abs_le
  have hxc : |val p - Q| ≤ 31 / 10 * r * |Q| := hx
  -- the product
  have e1 : val p * y - Q * D = val p * (y - D) + (val p - Q) * D := by ring
  have h2 : |val p * y - Q * D| ≤ (1 + 31 / 10 * r) * |Q| * (r * |D| + η) + 31 / 10 * r * |Q| * |D| := by
    rw [e1]
    refine (abs_add_le _ _).trans ?_
    rw [abs_mul, abs_mul]
    exact add_le_add (mul_le_mul hxa hd (abs_nonneg _) (mul_nonneg (by linarith) (abs_nonneg _)))
      (mul_le_mul_of_nonneg_right hxc (abs_nonneg _))
  set C := |Q| * |D| with hC
  have hC0 : 0 ≤ C := mul_nonneg (abs_nonneg _) (abs_nonneg _)
  have hQη : 0 ≤ |Q| * η := mul_nonneg (abs_nonneg _) hη
  have hrC : 0 ≤ r * C := mul_nonneg h0 hC0
  have h3 : |val p * y - Q * D| ≤ 414 / 100 * (r * C) + 104 / 100 * (|Q| * η) := by
    refine h2.trans ?_
    have e2 : (1 + 31 / 10 * r) * |Q| * (r * |D| + η) + 31 / 10 * r * |Q| * |D| =
        (41 / 10 * r + 31 / 10 * (r * r)) * C + (1 + 31 / 10 * r) * (|Q| * η) := by rw [hC]; ring
    rw [e2]
    have b1 : (41 / 10 * r + 31 / 10 * (r * r)) * C ≤ (414 / 100 * r) * C := by
      apply mul_le_mul_of_nonneg_right _ hC0
      nlinarith
    have b2 : (1 + 31 / 10 * r) * (|Q| * η) ≤ (104 / 100) * (|Q| * η) := mul_le_mul_of_nonneg_right (by linarith) hQη
    linarith
  set m := val (p * (a - b)) with hm
  have hr := (H.mul p (a - b)).1
  rw [← hy, ← hm] at hr
  have h4 : |m - Q * D| ≤ 521 / 100 * (r * C) + 106 / 100 * (|Q| * η) + η := by
    have h5 : |val p * y| ≤ |val p * y - Q * D| + |Q * D| := by
      have := abs_add_le (val p * y - Q * D) (Q * D)
      rwa [sub_add_cancel] at this
    rw [abs_mul Q D, ← hC] at h5
    have h6 : |m - Q * D| ≤ |m - val p * y| + |val p * y - Q * D| := by
      have := abs_add_le (m - val p * y) (val p * y - Q * D)
      rwa [sub_add_sub_cancel] at this
    have h7 : r * |val p * y| ≤ r * (414 / 100 * (r * C) + 104 / 100 * (|Q| * η) + C) :=
      mul_le_mul_of_nonneg_left (h5.trans (by linarith)) h0
    have h8 : r * (r * C) ≤ 1 / 100 * (r * C) := mul_le_mul_of_nonneg_right h1 hrC
    have h9 : r * (|Q| * η) ≤ 1 / 100 * (|Q| * η) := mul_le_mul_of_nonneg_right h1 hQη
    have e3 : r * (414 / 100 * (r * C) + 104 / 100 * (|Q| * η) + C) =
        414 / 100 * (r * (r * C)) + 104 / 100 * (r * (|Q| * η)) + r * C := by ring
    rw [e3] at h7
    linarith
  -- the division
  have hww : 979 / 1000 * |W| ≤ |val w| := by
    have : |W| ≤ |W - val w| + |val w| := by
      have := abs_add_le (W - val w) (val w)
      rwa [sub_add_cancel] at this
    rw [abs_sub_comm] at this
    have h2 : |val w - W| ≤ 21 / 1000 * |W| := Rel.mono hwr (by linarith)
    linarith
  have hwp : 0 < |val w| := lt_of_lt_of_le (by positivity) hww
  have hw0 : val w ≠ 0 := abs_pos.1 hwp
  have hqd : Rel (215 / 100 * r) (Q * D / val w) (Q * D / W) :=
    quot_rel H (p := 0) (q := 21 / 10) (by norm_num) (by norm_num) (by rw [zero_mul]; exact Rel.refl _) hwr (by norm_num)
      (by norm_num)
  have h10 : |m / val w - Q * D / W| ≤ |m - Q * D| / |val w| + |Q * D / val w - Q * D / W| := by
    have e5 : m / val w - Q * D / W = (m - Q * D) / val w + (Q * D / val w - Q * D / W) := by ring
    rw [e5, ← abs_div]
    exact abs_add_le _ _
  have hCW : |Q * D / W| = C / |W| := by rw [abs_div, abs_mul]
  set F := C / |W| with hF
  have hF0 : 0 ≤ F := div_nonneg hC0 hWp.le
  have hQW : |Q| / |W| ≤ 1 := by rw [← abs_div]; exact hcj
  have h11 : |m - Q * D| / |val w| ≤ 533 / 100 * (r * F) + 109 / 100 * η + 103 / 100 * (η / |W|) := by
    have a1 : |m - Q * D| / |val w| ≤ (521 / 100 * (r * C) + 106 / 100 * (|Q| * η) + η) / (979 / 1000 * |W|) :=
      div_le_div₀ (by positivity) h4 (by positivity) hww
    have e6 : (521 / 100 * (r * C) + 106 / 100 * (|Q| * η) + η) / (979 / 1000 * |W|) =
        1000 / 979 * (521 / 100 * (r * F) + 106 / 100 * (|Q| / |W| * η) + η / |W|) := by
      rw [hF]; field_simp
    rw [e6] at a1
    have a2 : |Q| / |W| * η ≤ 1 * η := mul_le_mul_of_nonneg_right hQW hη
    have a3 : 0 ≤ r * F := mul_nonneg h0 hF0
    have a4 : 0 ≤ η / |W| := div_nonneg hη hWp.le
    linarith
  have h12 : |m / val w - Q * D / W| ≤ 748 / 100 * (r * F) + 109 / 100 * η + 103 / 100 * (η / |W|) := by
    unfold Rel at hqd
    rw [hCW] at hqd
    have e7 : 215 / 100 * r * F = 215 / 100 * (r * F) := by ring
    rw [e7] at hqd
    linarith
  have hdv := (H.div (p * (a - b)) w).1
  rw [← hm] at hdv
  set q := val (p * (a - b) / w) with hq
  have h13 : |q - Q * D / W| ≤ |q - m / val w| + |m / val w - Q * D / W| := by
    have := abs_add_le (q - m / val w) (m / val w - Q * D / W)
    rwa [sub_add_sub_cancel] at this
  have h14 : |m / val w| ≤ |m / val w - Q * D / W| + F := by
    have := abs_add_le (m / val w - Q * D / W) (Q * D / W)
    rwa [sub_add_cancel, hCW] at this
  have hrF : 0 ≤ r * F := mul_nonneg h0 hF0
  have hηW : 0 ≤ η / |W| := div_nonneg hη hWp.le
  have h15 : r * |m / val w| ≤ r * (748 / 100 * (r * F) + 109 / 100 * η + 103 / 100 * (η / |W|) + F) :=
    mul_le_mul_of_nonneg_left (h14.trans (by linarith)) h0
  have e8 : r * (748 / 100 * (r * F) + 109 / 100 * η + 103 / 100 * (η / |W|) + F) =
      748 / 100 * (r * (r * F)) + 109 / 100 * (r * η) + 103 / 100 * (r * (η / |W|)) + r * F := by ring
  rw [e8] at h15
  have h16 : r * (r * F) ≤ 1 / 100 * (r * F) := mul_le_mul_of_nonneg_right h1 hrF
  have h17 : r * η ≤ 1 / 100 * η := mul_le_mul_of_nonneg_right h1 hη
  have h18 : r * (η / |W|) ≤ 1 / 100 * (η / |W|) := mul_le_mul_of_nonneg_right h1 hηW
  have e9 : Q / W * D = Q * D / W := by ring
  rw [e9, hCW]
  have e10 : 9 * r * F + (3 + 2 / |W|) * η = 9 * (r * F) + 3 * η + 2 * (η / |W|) := by ring
  rw [e10]
  linarith

end change

section norm
variable {K : Type} [Field K] [LinearOrder K] [IsStrictOrderedRing K]

/-- "The norm of the field is at most", for a norm that does not see translations. -/
structure GridNorm (N : List Nat) (m : K) (P : (List Nat → K) → K → Prop) : Prop where
  m_nonneg : 0 ≤ m
  const (c : K) : P (fun _ => c) (|c| * m)
  add {u w : List Nat → K} {a b : K} : P u a → P w b → P (fun g => u g + w g) (a + b)
  smul {u : List Nat → K} {a : K} (c : K) : P u a → P (fun g => c * u g) (|c| * a)
  dom {u w : List Nat → K} {a : K} : P u a → (∀ g, InGrid N g → |w g| ≤ |u g|) → P w a
  shift {u : List Nat → K} {a : K} (j : Nat) (s : Int) : P u a → P (fun g => u (neighbour N j s g)) a
  mono {u : List Nat → K} {a b : K} : P u a → a ≤ b → P u b

/-- The maximum norm. -/
theorem maxNorm (N : List Nat) : GridNorm (K := K) N 1 fun u b => ∀ g, InGrid N g → |u g| ≤ b where
  m_nonneg := zero_le_one
  const := by intro c g _; rw [mul_one]
  add := by intro u w a b h1 h2 g hg; exact (abs_add_le _ _).trans (add_le_add (h1 g hg) (h2 g hg))
  smul := by intro u a c h g hg; rw [abs_mul]; exact mul_le_mul_of_nonneg_left (h g hg) (abs_nonneg _)
  dom := by intro u w a h h' g hg; exact (h' g hg).trans (h g hg)
  shift := by intro u a j s h g hg; exact h _ (neighbour_inGrid hg j s)
  mono := by intro u a b h hab g hg; exact (h g hg).trans hab

theorem total_mono {N : List Nat} (hp : ∀ n ∈ N, 0 < n) {u w : List Nat → K} (h : ∀ g, InGrid N g → u g ≤ w g) :
    total N u ≤ total N w := sum_le_sum fun i _ => h _ (cellAt_inGrid hp i)

/-- The sum of the absolute values. -/
theorem sumNorm {N : List Nat} (hp : ∀ n ∈ N, 0 < n) : GridNorm (K := K) N (N.prod : K) fun u b => total N (fun g => |u g|) ≤ b where
  m_nonneg := Nat.cast_nonneg _
  const := by intro c; simp [total, mul_comm]
  add := by
    intro u w a b h1 h2
    refine (total_mono hp (w := fun g => |u g| + |w g|) fun g _ => abs_add_le _ _).trans ?_
    have : total N (fun g => |u g| + |w g|) = total N (fun g => |u g|) + total N (fun g => |w g|) := sum_add_distrib
    rw [this]; exact add_le_add h1 h2
  smul := by
    intro u a c h
    have : total N (fun g => |c * u g|) = |c| * total N (fun g => |u g|) := by
      unfold total; rw [mul_sum]; exact sum_congr rfl fun i _ => abs_mul _ _
    rw [this]; exact mul_le_mul_of_nonneg_left h (abs_nonneg _)
  dom := by intro u w a h h'; exact (total_mono hp h').trans h
  shift := by intro u a j s h; rw [total_neighbour hp j s (fun g => |u g|)]; exact h
  mono := by intro u a b h hab; exact h.trans hab

variable {N : List Nat} {m : K} {P : (List Nat → K) → K → Prop}

theorem GridNorm.abs (hP : GridNorm N m P) {u : List Nat → K} {a : K} (h : P u a) : P (fun g => |u g|) a :=
  hP.dom h fun g _ => by rw [abs_abs]

theorem GridNorm.sub (hP : GridNorm N m P) {u w : List Nat → K} {a b : K} (h : P u a) (h' : P w b) :
    P (fun g => u g - w g) (a + b) := by
  have h2 := hP.smul (-1) h'
  have := hP.add h h2
  rw [abs_neg, abs_one, one_mul] at this
  exact hP.dom this fun g _ => by rw [neg_one_mul, sub_eq_add_neg]

/-- Partial sums over the axes of the scheme, as weighted means. -/
theorem GridNorm.mean (hP : GridNorm N m P) (s : Nat → Int) {w : Nat → K} (hw : ∀ j, 0 ≤ w j) {u : List Nat → K} {b : K}
    (hu : P u b) (c : K) (n : Nat) :
    P (fun g => c * u g + ∑ j ∈ range n, w j * u (neighbour N j (s j) g)) ((|c| + ∑ j ∈ range n, w j) * b) := by
  induction n with
  | zero => simpa using hP.smul c hu
  | succ n ih =>
    have h2 := hP.add ih (hP.smul (w n) (hP.shift n (s n) hu))
    refine hP.mono (hP.dom h2 fun g _ => ?_) ?_
    · rw [sum_range_succ, ← add_assoc]
    · rw [sum_range_succ, abs_of_nonneg (hw n)]
      exact le_of_eq (by ring)

/-- The field after the first `n` axes of an exact step. -/
def partialStep (N : List Nat) (s : Nat → Int) (w : Nat → K) (u : List Nat → K) (n : Nat) (g : List Nat) : K :=
  u g + ∑ j ∈ range n, w j * (u (neighbour N j (s j) g) - u g)

theorem GridNorm.partialStep (hP : GridNorm N m P) (s : Nat → Int) {w : Nat → K} (hw : ∀ j, 0 ≤ w j) {u : List Nat → K}
    {b : K} (hu : P u b) (n : Nat) (hn : ∑ j ∈ range n, w j ≤ 1) : P (partialStep N s w u n) b := by
  have h := hP.mean s hw hu (1 - ∑ j ∈ range n, w j) n
  rw [abs_of_nonneg (by linarith), sub_add_cancel, one_mul] at h
  refine hP.dom h fun g _ => le_of_eq (congrArg _ ?_)
  unfold Fidi.partialStep
  rw [sub_mul, one_mul, sum_mul]
  simp only [mul_sub, sum_sub_distrib]
  ring

theorem upwindStep_partial (N : List Nat) (s : Nat → Int) (w : Nat → K) (u : List Nat → K) :
    upwindStep N s (fun j => -w j) u = partialStep N s w u N.length := by
  funext g
  rw [upwindStep_eq]
  unfold partialStep
  simp only [neg_mul, sum_neg_distrib, sub_neg_eq_add]

end norm

section steps
variable {R K : Type} [Zero R] [One R] [Add R] [Sub R] [Mul R] [Div R] [NatCast R] [IntCast R] [LT R] [DecidableLT R]
  [Field K] [LinearOrder K] [IsStrictOrderedRing K] {val : R → K} {r η tiny z m : K} {N : List Nat}
  {P : (List Nat → K) → K → Prop}

/-- The field after the first `n` axes of a computed step. -/
def partialScheme (N : List Nat) (s : Nat → Int) (chg : Nat → R → R → R) (u : List Nat → R) (n : Nat) (g : List Nat) : R :=
  (List.range n).foldl (fun acc j => acc - chg j (u (neighbour N j (s j) g)) (u g)) (u g)

theorem partialScheme_succ (s : Nat → Int) (chg : Nat → R → R → R) (u : List Nat → R) (n : Nat) (g : List Nat) :
    partialScheme N s chg u (n + 1) g =
      partialScheme N s chg u n g - chg n (u (neighbour N n (s n) g)) (u g) := by
  unfold partialScheme
  rw [List.range_succ, List.foldl_append]
  rfl

/-- Error of the first `n` axes of a step. -/
theorem partial_error (H : Rounded R K val r η tiny) (hP : GridNorm N m P) (s : Nat → Int) {chg : Nat → R → R → R}
    {w : Nat → K} (hw : ∀ j, 0 ≤ w j) (hs : ∀ n, n ≤ N.length → ∑ j ∈ range n, w j ≤ 1) (hz : 0 ≤ z)
    (hchg : ChangeOk val r z (fun j => -w j) N.length chg)
    (u : List Nat → R) {b : K} (hb : 0 ≤ b) (hu : P (fun g => val (u g)) b) (n : Nat) (hn : n ≤ N.length) :
    P (fun g => val (partialScheme N s chg u n g) - partialStep N s w (fun g => val (u g)) n g)
      ((1 + r) ^ n * ((18 * (∑ j ∈ range n, w j) + n) * r * b + n * (z + η) * m)) := by
  have h0 := H.r_nonneg
  have hη := H.η_nonneg
  have hm := hP.m_nonneg
  induction n with
  | zero =>
    refine hP.mono (hP.dom (hP.const 0) fun g _ => ?_) ?_
    · simp [partialScheme, partialStep]
    · simp
  | succ n ih =>
    have ih := ih (by omega)
    have hA := hP.partialStep s hw hu (n + 1) (hs _ hn)
    have hD := hP.sub (hP.shift n (s n) hu) hu
    have hw9 : 0 ≤ 9 * r * w n := mul_nonneg (by linarith) (hw n)
    have hin := hP.add (hP.add (hP.abs ih) (hP.smul (9 * r * w n) (hP.abs hD))) (hP.const z)
    have hall := hP.add (hP.add (hP.smul (1 + r) hin) (hP.smul r (hP.abs hA))) (hP.const η)
    rw [abs_of_nonneg (by linarith : (0 : K) ≤ 1 + r), abs_of_nonneg h0, abs_of_nonneg hw9, abs_of_nonneg hz,
      abs_of_nonneg hη] at hall
    refine hP.mono (hP.dom hall fun g _ => ?_) ?_
    · refine le_trans ?_ (le_abs_self _)
      rw [partialScheme_succ]
      set x := partialScheme N s chg u n g with hx
      set t := chg n (u (neighbour N n (s n) g)) (u g) with ht
      have e1 : partialStep N s w (fun g => val (u g)) (n + 1) g = partialStep N s w (fun g => val (u g)) n g +
          w n * (val (u (neighbour N n (s n) g)) - val (u g)) := by
        unfold partialStep; rw [sum_range_succ, add_assoc]
      have h1 := (H.sub x t).1
      have h2 : |val t - -w n * (val (u (neighbour N n (s n) g)) - val (u g))| ≤
          9 * r * w n * |val (u (neighbour N n (s n) g)) - val (u g)| + z := by
        have := hchg n (by omega) (u (neighbour N n (s n) g)) (u g)
        rw [abs_mul (-w n), abs_neg, abs_of_nonneg (hw n)] at this
        rw [mul_assoc (9 * r)]
        exact this
      set A := partialStep N s w (fun g => val (u g)) (n + 1) g with hA'
      set A0 := partialStep N s w (fun g => val (u g)) n g with hA0
      set q := w n * (val (u (neighbour N n (s n) g)) - val (u g)) with hq
      have hq' : -w n * (val (u (neighbour N n (s n) g)) - val (u g)) = -q := by rw [hq]; ring
      rw [hq'] at h2
      have h3 : |val x - val t - A| ≤ |val x - A0| + |val t - -q| := by
        have e : val x - val t - A = (val x - A0) - (val t - -q) := by rw [e1]; ring
        rw [e]; exact abs_sub _ _
      have h4 : |val x - val t| ≤ |val x - val t - A| + |A| := by
        have := abs_add_le (val x - val t - A) A
        rwa [sub_add_cancel] at this
      have h5 : |val (x - t) - A| ≤ |val (x - t) - (val x - val t)| + |val x - val t - A| := by
        have := abs_add_le (val (x - t) - (val x - val t)) (val x - val t - A)
        rwa [sub_add_sub_cancel] at this
      have h6 := mul_le_mul_of_nonneg_left h4 h0
      have h7 : (1 + r) * |val x - val t - A| ≤
          (1 + r) * (|val x - A0| + 9 * r * w n * |val (u (neighbour N n (s n) g)) - val (u g)| + z) :=
        mul_le_mul_of_nonneg_left (h3.trans (by linarith)) (by linarith)
      linarith
    · have hp : (1 : K) ≤ (1 + r) ^ (n + 1) := one_le_pow₀ (by linarith)
      have hrb : 0 ≤ r * b := mul_nonneg h0 hb
      have h1r : (1 + r) ≤ (1 + r) ^ (n + 1) := le_self_pow₀ (by linarith) (by omega)
      have hwr : 0 ≤ w n * (r * b) := mul_nonneg (hw n) hrb
      rw [sum_range_succ]
      push_cast
      have e1 : (1 + r) * ((1 + r) ^ n * ((18 * ∑ j ∈ range n, w j + ↑n) * r * b + ↑n * (z + η) * m) +
            9 * r * w n * (b + b) + z * m) + r * b + η * m =
          (1 + r) ^ (n + 1) * ((18 * ∑ j ∈ range n, w j + ↑n) * (r * b)) + (1 + r) ^ (n + 1) * (↑n * (z + η) * m) +
            18 * ((1 + r) * (w n * (r * b))) + r * b + (1 + r) * (z * m) + η * m := by
        rw [pow_succ]; ring
      have e2 : (1 + r) ^ (n + 1) * ((18 * (∑ j ∈ range n, w j + w n) + (↑n + 1)) * r * b + (↑n + 1) * (z + η) * m) =
          (1 + r) ^ (n + 1) * ((18 * ∑ j ∈ range n, w j + ↑n) * (r * b)) + (1 + r) ^ (n + 1) * (↑n * (z + η) * m) +
            18 * ((1 + r) ^ (n + 1) * (w n * (r * b))) + (1 + r) ^ (n + 1) * (r * b) +
            (1 + r) ^ (n + 1) * (z * m) + (1 + r) ^ (n + 1) * (η * m) := by ring
      rw [e1, e2]
      have a1 := mul_le_mul_of_nonneg_right h1r hwr
      have a2 := mul_le_mul_of_nonneg_right hp hrb
      have a3 := mul_le_mul_of_nonneg_right h1r (mul_nonneg hz hm)
      have a4 := mul_le_mul_of_nonneg_right hp (mul_nonneg hη hm)
      linarith

/-- Error of a step. -/
theorem step_error (H : Rounded R K val r η tiny) (hP : GridNorm N m P) (s : Nat → Int) {chg : Nat → R → R → R}
    {w : Nat → K} (hw : ∀ j, 0 ≤ w j) (hs : ∑ j ∈ range N.length, w j ≤ 1) (hz : 0 ≤ z)
    (hchg : ChangeOk val r z (fun j => -w j) N.length chg)
    (u : List Nat → R) {b : K} (hb : 0 ≤ b) (hu : P (fun g => val (u g)) b) :
    P (fun g => val (schemeStep N s chg u g) - upwindStep N s (fun j => -w j) (fun g => val (u g)) g)
      (stepError N.length r * b + stepUnderflow N.length r ((z + η) * m)) := by
  have h0 := H.r_nonneg
  have hs' : ∀ n, n ≤ N.length → ∑ j ∈ range n, w j ≤ 1 := fun n hn =>
    (sum_le_sum_of_subset_of_nonneg (range_subset_range.2 hn) fun j _ _ => hw j).trans hs
  have h := partial_error H hP s hw hs' hz hchg u hb hu N.length (le_refl _)
  rw [upwindStep_partial]
  refine hP.mono h ?_
  unfold stepError stepUnderflow
  have hp : (0 : K) ≤ (1 + r) ^ N.length := pow_nonneg (by linarith) _
  have h1 : (1 + r) ^ N.length * (18 * (∑ j ∈ range N.length, w j) + N.length) ≤
      (1 + r) ^ N.length * ((N.length : K) + 18) := mul_le_mul_of_nonneg_left (by linarith) hp
  have h2 := mul_le_mul_of_nonneg_right (mul_le_mul_of_nonneg_right h1 h0) hb
  have e : (1 + r) ^ N.length * ((18 * ∑ j ∈ range N.length, w j + ↑N.length) * r * b + ↑N.length * (z + η) * m) =
      (1 + r) ^ N.length * (18 * (∑ j ∈ range N.length, w j) + N.length) * r * b +
        (1 + r) ^ N.length * ↑N.length * ((z + η) * m) := by ring
  rw [e]
  exact add_le_add_left h2 _

theorem stepError_nonneg (h0 : 0 ≤ r) (d : Nat) : 0 ≤ stepError d r :=
  mul_nonneg (mul_nonneg (pow_nonneg (by linarith) _) (by positivity)) h0

theorem stepUnderflow_nonneg (h0 : 0 ≤ r) (hz : 0 ≤ z) (d : Nat) : 0 ≤ stepUnderflow d r z :=
  mul_nonneg (mul_nonneg (pow_nonneg (by linarith) _) (by positivity)) hz

theorem upwindStep_sub (s : Nat → Int) (c : Nat → K) (u w : List Nat → K) (g : List Nat) :
    upwindStep N s c u g - upwindStep N s c w g = upwindStep N s c (fun g => u g - w g) g := by
  simp only [upwindStep_eq]
  rw [sub_sub_sub_comm, ← sum_sub_distrib]
  congr 1
  exact sum_congr rfl fun j _ => by ring

theorem grown_succ (h0 : 0 ≤ r) (hz : 0 ≤ z) (d k : Nat) (b : K) :
    (1 + stepError d r) * grown d r z k b + stepUnderflow d r z ≤ grown d r z (k + 1) b := by
  have he := stepError_nonneg (r := r) h0 d
  have hu := stepUnderflow_nonneg h0 hz d
  unfold grown
  have h1 : (1 : K) ≤ (1 + stepError d r) ^ (k + 1) := one_le_pow₀ (by linarith)
  have h2 := mul_le_mul_of_nonneg_right h1 hu
  rw [pow_succ] at *
  push_cast
  nlinarith

/-- Error and size of the field after `k` steps. -/
theorem iter_error (H : Rounded R K val r η tiny) (hP : GridNorm N m P) (s : Nat → Int) {chg : Nat → R → R → R}
    {w : Nat → K} (hw : ∀ j, 0 ≤ w j) (hs : ∑ j ∈ range N.length, w j ≤ 1) (hz : 0 ≤ z)
    (hchg : ChangeOk val r z (fun j => -w j) N.length chg)
    (u : List Nat → R) {b : K} (hb : 0 ≤ b) (hu : P (fun g => val (u g)) b) (k : Nat) :
    P (fun g => val ((schemeStep N s chg)^[k] u g)) (grown N.length r ((z + η) * m) k b) ∧
    P (fun g => val ((schemeStep N s chg)^[k] u g) - (upwindStep N s fun j => -w j)^[k] (fun g => val (u g)) g)
      (grown N.length r ((z + η) * m) k b - b) := by
  have h0 := H.r_nonneg
  have hη := H.η_nonneg
  have hm := hP.m_nonneg
  have he := stepError_nonneg h0 N.length
  have hzm : 0 ≤ (z + η) * m := mul_nonneg (by linarith) hm
  have hun := stepUnderflow_nonneg h0 hzm N.length
  induction k with
  | zero =>
    refine ⟨by simpa [grown] using hu, hP.mono (hP.dom (hP.const 0) fun g _ => by simp) (by simp [grown])⟩
  | succ k ih =>
    obtain ⟨h1, h2⟩ := ih
    have hbk : 0 ≤ grown N.length r ((z + η) * m) k b := mul_nonneg (pow_nonneg (by linarith) _)
      (add_nonneg hb (mul_nonneg (Nat.cast_nonneg _) hun))
    have hl := step_error H hP s hw hs hz hchg ((schemeStep N s chg)^[k] u) hbk h1
    have hS : ∀ x a, P x a → P (upwindStep N s (fun j => -w j) x) a := fun x a hx => by
      rw [upwindStep_partial]; exact hP.partialStep s hw hx _ hs
    have hg := grown_succ h0 hzm N.length k b
    constructor
    · rw [Function.iterate_succ', Function.comp_apply]
      refine hP.mono (hP.dom (hP.add hl (hS _ _ h1)) fun g _ => by rw [sub_add_cancel]) ?_
      linarith
    · rw [Function.iterate_succ', Function.comp_apply, Function.iterate_succ', Function.comp_apply]
      refine hP.mono (hP.dom (hP.add hl (hS _ _ h2)) fun g _ => ?_) ?_
      · rw [← upwindStep_sub, sub_add_sub_cancel]
      · linarith

/-- Error of adding the elements of a list one after the other. -/
theorem foldl_add_error (H : Rounded R K val r η tiny) (l : List R) (a : R) :
    |val (l.foldl (· + ·) a) - (val a + (l.map val).sum)| ≤
      (1 + r) ^ l.length * (|val a| + (l.map fun x => |val x|).sum + l.length * η) -
        (|val a| + (l.map fun x => |val x|).sum) := by
  have h0 := H.r_nonneg
  have hη := H.η_nonneg
  induction l generalizing a with
  | nil => simp
  | cons x l ih =>
    rw [List.foldl_cons, List.map_cons, List.sum_cons, List.map_cons, List.sum_cons, List.length_cons]
    have h := ih (a + x)
    set S := (l.map val).sum
    set T := (l.map fun x => |val x|).sum with hT
    have hT0 : 0 ≤ T := by
      rw [hT]; apply List.sum_nonneg; intro y hy
      obtain ⟨t, _, rfl⟩ := List.mem_map.1 hy
      exact abs_nonneg _
    set n := l.length
    have h1 := (H.add a x).1
    have h2 := abs_add_le (val a) (val x)
    have h3 : |val (a + x)| ≤ |val (a + x) - (val a + val x)| + |val a + val x| := by
      have := abs_add_le (val (a + x) - (val a + val x)) (val a + val x)
      rwa [sub_add_cancel] at this
    set y := val (l.foldl (· + ·) (a + x))
    have h4 : |y - (val a + (val x + S))| ≤ |y - (val (a + x) + S)| + |val (a + x) - (val a + val x)| := by
      have e : y - (val a + (val x + S)) = (y - (val (a + x) + S)) + (val (a + x) - (val a + val x)) := by ring
      rw [e]; exact abs_add_le _ _
    set Z := |val a| + |val x| with hZ
    have hZ0 : 0 ≤ Z := add_nonneg (abs_nonneg _) (abs_nonneg _)
    have h5 : |val (a + x) - (val a + val x)| ≤ r * Z + η := h1.trans (by linarith [mul_le_mul_of_nonneg_left h2 h0])
    have h6 : |val (a + x)| ≤ (1 + r) * Z + η := by linarith
    have hp : (1 : K) ≤ (1 + r) ^ n := one_le_pow₀ (by linarith)
    have hp0 : (0 : K) ≤ (1 + r) ^ n := by linarith
    have h7 : ((1 + r) ^ n - 1) * |val (a + x)| ≤ ((1 + r) ^ n - 1) * ((1 + r) * Z + η) :=
      mul_le_mul_of_nonneg_left h6 (by linarith)
    have hn0 : (0 : K) ≤ n := Nat.cast_nonneg _
    have h8 : (1 + r) ^ n * (T + ((n : K) + 1) * η) ≤ (1 + r) ^ (n + 1) * (T + ((n : K) + 1) * η) := by
      apply mul_le_mul_of_nonneg_right _ (add_nonneg hT0 (mul_nonneg (by linarith) hη))
      rw [pow_succ]; nlinarith
    push_cast
    have e1 : (1 + r) ^ n * (|val (a + x)| + T + n * η) - (|val (a + x)| + T) =
        ((1 + r) ^ n - 1) * |val (a + x)| + (1 + r) ^ n * (T + n * η) - T := by ring
    have e2 : (1 + r) ^ (n + 1) * (|val a| + (|val x| + T) + ((n : K) + 1) * η) - (|val a| + (|val x| + T)) =
        (1 + r) ^ (n + 1) * Z + (1 + r) ^ (n + 1) * (T + ((n : K) + 1) * η) - Z - T := by rw [hZ]; ring
    rw [e1] at h
    rw [e2]
    have e3 : ((1 + r) ^ n - 1) * ((1 + r) * Z + η) + (1 + r) ^ n * (T + n * η) + r * Z + η =
        (1 + r) ^ (n + 1) * Z + (1 + r) ^ n * (T + ((n : K) + 1) * η) - Z := by rw [pow_succ]; ring
    linarith

end steps

section scheme
variable {R K : Type} [Zero R] [One R] [Add R] [Sub R] [Mul R] [Div R] [NatCast R] [IntCast R] [LT R] [DecidableLT R]
  [Field K] [LinearOrder K] [IsStrictOrderedRing K] {val : R → K} {r η tiny z m : K} {N : List Nat} {dt : R} {v L : List R}
  {P : (List Nat → K) → K → Prop}

theorem val_pos_of {L : List R} (hL : ∀ x ∈ L, 0 < val x) : ∀ x ∈ L.map val, 0 < x := by
  intro x hx
  obtain ⟨y, hy, rfl⟩ := List.mem_map.1 hx
  exact hL y hy

/-- Below the Courant limit the coefficients are at most 1. -/
theorem coeff_le_one (hdt : 0 ≤ val dt) (hL : ∀ x ∈ L, 0 < val x)
    (hc : courant (val dt) (v.map val) (L.map val) N ≤ 1) (j : Nat) (hj : j < N.length) :
    |upCoeff (val dt) (v.map val) (L.map val) N j| ≤ 1 := by
  rw [upCoeff_eq, abs_neg, abs_of_nonneg (weight_nonneg hdt (val_pos_of hL) j)]
  rw [courant_eq] at hc
  refine le_trans ?_ hc
  exact single_le_sum (f := fun j => val dt * |(v.map val).getD j 0| / cellWidth (L.map val) N j)
    (fun j _ => weight_nonneg hdt (val_pos_of hL) j) (mem_range.2 hj)

/-- Error and size of the field after `k` steps of a scheme below the Courant limit. -/
theorem scheme_error (H : Rounded R K val r η tiny) (hP : GridNorm N m P) (hdt : 0 ≤ val dt) (hL : ∀ x ∈ L, 0 < val x)
    (hc : courant (val dt) (v.map val) (L.map val) N ≤ 1) {chg : Nat → R → R → R} (hz : 0 ≤ z)
    (hchg : ChangeOk val r z (upCoeff (val dt) (v.map val) (L.map val) N) N.length chg)
    (u : List Nat → R) {b : K} (hb : 0 ≤ b) (hu : P (fun g => val (u g)) b) (k : Nat) :
    P (fun g => val ((schemeStep N (upDir v) chg)^[k] u g)) (grown N.length r ((z + η) * m) k b) ∧
    P (fun g => val ((schemeStep N (upDir v) chg)^[k] u g) -
      (upwindStep N (upDir (v.map val)) (upCoeff (val dt) (v.map val) (L.map val) N))^[k] (fun g => val (u g)) g)
      (grown N.length r ((z + η) * m) k b - b) := by
  have hcoef : upCoeff (val dt) (v.map val) (L.map val) N =
      fun j => -(val dt * |(v.map val).getD j 0| / cellWidth (L.map val) N j) := by
    funext j; exact upCoeff_eq _ _ _ _ j
  rw [courant_eq] at hc
  rw [hcoef] at hchg ⊢
  rw [upDir_val H]
  exact iter_error H hP (upDir v) (fun j => weight_nonneg hdt (val_pos_of hL) j) hc hz hchg u hb hu k

theorem upwindStep_is_scheme (N : List Nat) (s : Nat → Int) (c : Nat → R) :
    upwindStep N s c = schemeStep N s (fun j a b => c j * (a - b)) := rfl

/-- From the field to its list. -/
theorem Near.of_stores {f : List R} {u : List Nat → R} {w : List Nat → K} {e : K} (hs : Stores N f u)
    (h : ∀ g, InGrid N g → |val (u g) - w g| ≤ e) : Near N val f w e :=
  ⟨hs.1, fun g hg => ⟨u g, hs.2 g hg, h g hg⟩⟩

theorem NearCol.of_stores {f : List R} {u : List Nat → R} {w : List Nat → K} {e : K} (hs : StoresCol N f u)
    (h : ∀ g, InGrid N g → |val (u g) - w g| ≤ e) : NearCol N val f w e :=
  ⟨hs.1, fun g hg => ⟨u g, hs.2 g hg, h g hg⟩⟩

/-- Error of the sum of a field computed in order. -/
theorem sum_error (H : Rounded R K val r η tiny) (hp : ∀ n ∈ N, 0 < n) (hdt : 0 ≤ val dt) (hL : ∀ x ∈ L, 0 < val x)
    (hc : courant (val dt) (v.map val) (L.map val) N ≤ 1) {chg : Nat → R → R → R} (hz : 0 ≤ z)
    (hchg : ChangeOk val r z (upCoeff (val dt) (v.map val) (L.map val) N) N.length chg)
    (u : List Nat → R) (k : Nat) :
    |val ((listOf N ((schemeStep N (upDir v) chg)^[k] u)).foldl (· + ·) 0) - total N (fun g => val (u g))| ≤
      (1 + r) ^ N.prod * (grown N.length r ((z + η) * N.prod) k (total N fun g => |val (u g)|) + N.prod * η) -
        total N fun g => |val (u g)| := by
  have h0 := H.r_nonneg
  set B := total N fun g => |val (u g)| with hB
  have hB0 : 0 ≤ B := sum_nonneg fun _ _ => abs_nonneg _
  obtain ⟨h1, h2⟩ := scheme_error H (sumNorm hp) hdt hL hc hz hchg u hB0 (le_refl _) k
  set G := grown N.length r ((z + η) * N.prod) k B with hG
  set w := (schemeStep N (upDir v) chg)^[k] u with hw
  set x := (upwindStep N (upDir (v.map val)) (upCoeff (val dt) (v.map val) (L.map val) N))^[k] (fun g => val (u g)) with hx
  have h3 := foldl_add_error H (listOf N w) 0
  have e1 : ((listOf N w).map val).sum = total N fun g => val (w g) := by
    rw [← sum_listOf]; unfold listOf; rw [List.map_map]; rfl
  have e2 : ((listOf N w).map fun x => |val x|).sum = total N fun g => |val (w g)| := by
    rw [← sum_listOf]; unfold listOf; rw [List.map_map]; rfl
  rw [H.zero, abs_zero, zero_add, zero_add, e1, e2, length_listOf] at h3
  have e3 : total N x = total N (fun g => val (u g)) := total_iter hp _ _ _ _
  have h4 : |(total N fun g => val (w g)) - total N x| ≤ G - B := by
    refine le_trans ?_ h2
    unfold total
    rw [← sum_sub_distrib]
    exact abs_sum_le_sum_abs _ _
  rw [e3] at h4
  have hp1 : (1 : K) ≤ (1 + r) ^ N.prod := one_le_pow₀ (by linarith)
  have h5 : ((1 + r) ^ N.prod - 1) * (total N fun g => |val (w g)|) ≤ ((1 + r) ^ N.prod - 1) * G :=
    mul_le_mul_of_nonneg_left h1 (by linarith)
  set s := val ((listOf N w).foldl (· + ·) 0)
  have h6 : |s - total N (fun g => val (u g))| ≤ |s - total N (fun g => val (w g))| +
      |(total N fun g => val (w g)) - total N (fun g => val (u g))| := by
    have := abs_add_le (s - total N (fun g => val (w g))) ((total N fun g => val (w g)) - total N (fun g => val (u g)))
    rwa [sub_add_sub_cancel] at this
  linarith

/-- The exact scheme keeps the values within the bounds of the initial field. -/
theorem exact_range (hdt : 0 ≤ val dt) (hL : ∀ x ∈ L, 0 < val x)
    (hc : courant (val dt) (v.map val) (L.map val) N ≤ 1) {lo hi : K} (u : List Nat → K)
    (hu : ∀ g, InGrid N g → lo ≤ u g ∧ u g ≤ hi) (s : Nat → Int) (k : Nat) :
    ∀ g, InGrid N g → lo ≤ (upwindStep N s (upCoeff (val dt) (v.map val) (L.map val) N))^[k] u g ∧
      (upwindStep N s (upCoeff (val dt) (v.map val) (L.map val) N))^[k] u g ≤ hi := by
  have hcoef : upCoeff (val dt) (v.map val) (L.map val) N =
      fun j => -(val dt * |(v.map val).getD j 0| / cellWidth (L.map val) N j) := by
    funext j; exact upCoeff_eq _ _ _ _ j
  rw [courant_eq] at hc
  rw [hcoef]
  have hw := fun j (_ : j < N.length) => weight_nonneg (v := v.map val) (N := N) hdt (val_pos_of hL) j
  induction k with
  | zero => exact hu
  | succ k ih =>
    intro g hg
    rw [Function.iterate_succ', Function.comp_apply]
    refine ⟨?_, step_le _ hw hc (fun g hg => (ih g hg).2) hg⟩
    have h := step_le s hw hc (u := fun g => 0 - (upwindStep N s fun j =>
      -(val dt * |(v.map val).getD j 0| / cellWidth (L.map val) N j))^[k] u g) (b := -lo)
      (fun g hg => by linarith [(ih g hg).1]) hg
    rw [← upwindStep_sub] at h
    have e0 : upwindStep N s (fun j => -(val dt * |(v.map val).getD j 0| / cellWidth (L.map val) N j))
        (fun _ => (0 : K)) g = 0 := by rw [upwindStep_eq]; simp
    rw [e0] at h
    linarith

end scheme

end Fidi
