import Verif.Lemmas.Rounding
import Verif.Lemmas.Dbl
import Verif.Model.Ieee
import Verif.Props.Upwind
import Verif.Props.UpwindAcc
import Verif.Props.UpwindOther

/-
Property C58: rounding errors of the upwind solvers.
`R` is any number type with the standard model of floating-point arithmetic (`Rounded`), `val` gives the values; the exact
scheme is `upwindStep` on the values. `r` is the relative error of an operation, `η` its absolute error under underflow.
-/
set_option linter.unusedSectionVars false

namespace Fidi
open Spec Upwind Finset

section
variable {R K : Type} [Zero R] [One R] [Add R] [Sub R] [Mul R] [Div R] [NatCast R] [IntCast R] [LT R] [DecidableLT R]
  [Field K] [LinearOrder K] [IsStrictOrderedRing K] {val : R → K} {r η tiny : K}

/-- C58: upwind.cxx, from any field bounded by `B`: after `k` steps every value is within `grown ... - B` of what the exact
scheme gives. -/
theorem C58_upwind_error (H : Rounded R K val r η tiny) (N : List Nat) (hN : N ≠ []) (hdim : N.length < 2 ^ 64)
    (hpos : ∀ n ∈ N, 0 < n) (hcells : N.prod < 2 ^ 31) (haxis : ∀ n ∈ N, n < 2 ^ 30) (v L : List R)
    (hv : v.length = N.length) (hL : L.length = N.length) (hLpos : ∀ x ∈ L, 0 < val x) (s0 : Upwind R)
    (hnew : Upwind.new N.length v L N = .ok s0) (dt : R) (hdt : 0 ≤ val dt)
    (hc : courant (val dt) (v.map val) (L.map val) N ≤ 1)
    (hn : NormalCoeffs tiny (val dt) (v.map val) (L.map val) N)
    (f0 : List R) (u : List Nat → R) (hf : Stores N f0 u) (B : K) (hB : 0 ≤ B) (hu : ∀ g, InGrid N g → |val (u g)| ≤ B)
    (k : Int) :
    ∃ s', { s0 with f := f0 }.advect k dt = .ok s' ∧
      Near N val s'.f
        ((upwindStep N (upDir (v.map val)) (upCoeff (val dt) (v.map val) (L.map val) N))^[k.toNat] fun g => val (u g))
        (grown N.length r (4 * η) k.toNat B - B) := by
  obtain ⟨_, _, e⟩ := advect_spec hN hdim ⟨hpos, hcells, haxis⟩ hv hL hnew hf k dt
  have h := (scheme_error H (maxNorm N) hdt hLpos hc (mul_nonneg (by norm_num) H.η_nonneg)
    (change_cpp H hn (coeff_le_one hdt hLpos hc)) u hB hu k.toNat).2
  rw [mul_one, show 3 * η + η = 4 * η by ring] at h
  exact ⟨_, e, Near.of_stores (Stores.listOf hpos _) h⟩

/-- C58: so the values leave the bounds of the initial field by no more than that. -/
theorem C58_range (H : Rounded R K val r η tiny) (N : List Nat) (hN : N ≠ []) (hdim : N.length < 2 ^ 64)
    (hpos : ∀ n ∈ N, 0 < n) (hcells : N.prod < 2 ^ 31) (haxis : ∀ n ∈ N, n < 2 ^ 30) (v L : List R)
    (hv : v.length = N.length) (hL : L.length = N.length) (hLpos : ∀ x ∈ L, 0 < val x) (s0 : Upwind R)
    (hnew : Upwind.new N.length v L N = .ok s0) (dt : R) (hdt : 0 ≤ val dt)
    (hc : courant (val dt) (v.map val) (L.map val) N ≤ 1)
    (hn : NormalCoeffs tiny (val dt) (v.map val) (L.map val) N)
    (f0 : List R) (hf : f0.length = N.prod) (lo hi B : K) (hb : ∀ x ∈ f0, lo ≤ val x ∧ val x ≤ hi)
    (hlo : -B ≤ lo) (hhi : hi ≤ B) (hB : 0 ≤ B) (k : Int) :
    ∃ s', { s0 with f := f0 }.advect k dt = .ok s' ∧ s'.f.length = N.prod ∧
      ∀ x ∈ s'.f, lo - (grown N.length r (4 * η) k.toNat B - B) ≤ val x ∧
        val x ≤ hi + (grown N.length r (4 * η) k.toNat B - B) := by
  have u0 := exists_field hf
  have hbu : ∀ g, InGrid N g → lo ≤ val (f0.getD (rankOf N g) 0) ∧ val (f0.getD (rankOf N g) 0) ≤ hi := by
    intro g hg
    exact hb _ (List.mem_iff_getElem?.2 ⟨_, u0.2 g hg⟩)
  obtain ⟨s', e, hlen, h⟩ := C58_upwind_error H N hN hdim hpos hcells haxis v L hv hL hLpos s0 hnew dt hdt hc hn f0 _ u0 B hB
    (fun g hg => by
      obtain ⟨a, b⟩ := hbu g hg
      rw [abs_le]; constructor <;> linarith) k
  refine ⟨s', e, hlen, fun x hx => ?_⟩
  obtain ⟨i, hi⟩ := List.mem_iff_getElem?.1 hx
  have hlt : i < N.prod := by
    have := (List.getElem?_eq_some_iff.1 hi).1
    omega
  obtain ⟨y, hy, hye⟩ := h (cellAt N i) (cellAt_inGrid hpos i)
  rw [rankOf_cellAt hpos hlt, hi] at hy
  injection hy with hy
  subst hy
  obtain ⟨a, b⟩ := exact_range hdt hLpos hc (fun g => val (f0.getD (rankOf N g) 0)) hbu (upDir (v.map val)) k.toNat
    (cellAt N i) (cellAt_inGrid hpos i)
  rw [abs_le] at hye
  constructor <;> linarith

/-- C58: the check sum of upwind.cxx is the sum of the initial values up to the rounding errors of the steps and of the
summation. -/
theorem C58_checksum_error (H : Rounded R K val r η tiny) (N : List Nat) (hN : N ≠ []) (hdim : N.length < 2 ^ 64)
    (hpos : ∀ n ∈ N, 0 < n) (hcells : N.prod < 2 ^ 31) (haxis : ∀ n ∈ N, n < 2 ^ 30) (v L : List R)
    (hv : v.length = N.length) (hL : L.length = N.length) (hLpos : ∀ x ∈ L, 0 < val x) (s0 : Upwind R)
    (hnew : Upwind.new N.length v L N = .ok s0) (dt : R) (hdt : 0 ≤ val dt)
    (hc : courant (val dt) (v.map val) (L.map val) N ≤ 1)
    (hn : NormalCoeffs tiny (val dt) (v.map val) (L.map val) N)
    (f0 : List R) (hf : f0.length = N.prod) (k : Int) :
    ∃ s', { s0 with f := f0 }.advect k dt = .ok s' ∧
      |val s'.checksum - (f0.map val).sum| ≤
        (1 + r) ^ N.prod * (grown N.length r (4 * η * N.prod) k.toNat (f0.map fun x => |val x|).sum + N.prod * η) -
          (f0.map fun x => |val x|).sum := by
  have u0 := exists_field hf
  obtain ⟨_, _, e⟩ := advect_spec hN hdim ⟨hpos, hcells, haxis⟩ hv hL hnew u0 k dt
  refine ⟨_, e, ?_⟩
  have e0 := (stores_iff hpos).1 u0
  have e1 : (f0.map val).sum = total N fun g => val (f0.getD (rankOf N g) 0) := by
    conv_lhs => rw [e0]
    rw [← sum_listOf]; unfold listOf; rw [List.map_map]; rfl
  have e2 : (f0.map fun x => |val x|).sum = total N fun g => |val (f0.getD (rankOf N g) 0)| := by
    conv_lhs => rw [e0]
    rw [← sum_listOf]; unfold listOf; rw [List.map_map]; rfl
  rw [e1, e2]
  have h := sum_error H hpos hdt hLpos hc (mul_nonneg (by norm_num) H.η_nonneg)
    (change_cpp H hn (coeff_le_one hdt hLpos hc)) (fun g => f0.getD (rankOf N g) 0) k.toNat
  rw [show 3 * η + η = 4 * η by ring] at h
  exact h

theorem val_corner (H : Rounded R K val r η tiny) (g : List Nat) :
    val (cornerField g : R) = cornerField g := by
  unfold cornerField
  split
  · exact H.one
  · exact H.zero

theorem abs_corner (H : Rounded R K val r η tiny) (g : List Nat) : |val (cornerField g : R)| ≤ 1 := by
  rw [val_corner H]
  unfold cornerField
  split <;> simp

/-- C58: the Fortran versions, whatever the schedule. The underflow of the product is divided by the cell width, `z` bounds
that. -/
theorem C58_fortran_error (H : Rounded R K val r η tiny) (N : List Nat) (hN : N ≠ []) (hdim : N.length + 1 < 2 ^ 31)
    (hpos : ∀ n ∈ N, 0 < n) (hcells : N.prod < 2 ^ 31) (haxis : ∀ n ∈ N, n < 2 ^ 30) (v L : List R)
    (hv : v.length = N.length) (hL : L.length = N.length) (hLpos : ∀ x ∈ L, 0 < val x)
    (hcast : ∀ n : Nat, ((n : Int) : R) = (n : R)) (dt : R) (hdt : 0 ≤ val dt)
    (hc : courant (val dt) (v.map val) (L.map val) N ≤ 1)
    (hn : NormalCoeffs tiny (val dt) (v.map val) (L.map val) N)
    (z : K) (hz0 : 0 ≤ z) (hz : ∀ j, j < N.length → (3 + 2 / |cellWidth (L.map val) N j|) * η ≤ z) (k : Nat) :
    ∃ s0 : FUpwind R, FUpwind.new v L (N.map fun n : Nat => (n : Int)) = .ok s0 ∧ (∃ x, FUpwind.Advances dt k s0 x) ∧
      ∀ x, FUpwind.Advances dt k s0 x → Near N val x.f
        ((upwindStep N (upDir (v.map val)) (upCoeff (val dt) (v.map val) (L.map val) N))^[k] cornerField)
        (grown N.length r (z + η) k 1 - 1) := by
  obtain ⟨s0, e, hex, h⟩ := C54_fortran_field N hN hdim hpos hcells haxis v L hv hL hcast dt k
  refine ⟨s0, e, hex, fun x hx => Near.of_stores (h x hx) ?_⟩
  have h2 := (scheme_error H (maxNorm N) hdt hLpos hc hz0 (change_fortran H hn (coeff_le_one hdt hLpos hc) hz)
    cornerField zero_le_one (fun g _ => abs_corner H g) k).2
  rw [mul_one] at h2
  have e3 : (fun g => val (cornerField g : R)) = (cornerField : List Nat → K) := funext (val_corner H)
  rw [e3] at h2
  exact h2

/-- C58: upwind.py. -/
theorem C58_python_error (H : Rounded R K val r η tiny) (N : List Nat) (hpos : ∀ n ∈ N, 0 < n) (hcells : N.prod < 2 ^ 31)
    (haxis : ∀ n ∈ N, n < 2 ^ 30) (v L : List R)
    (hv : v.length = N.length) (hL : L.length = N.length) (hLpos : ∀ x ∈ L, 0 < val x)
    (hcast : ∀ n : Nat, ((n : Int) : R) = (n : R)) (dt : R) (hdt : 0 ≤ val dt)
    (hc : courant (val dt) (v.map val) (L.map val) N ≤ 1)
    (hn : NormalCoeffs tiny (val dt) (v.map val) (L.map val) N) (k : Int) :
    ∃ s0 s : PyUpwind R, PyUpwind.new v L (N.map fun n : Nat => (n : Int)) = .ok s0 ∧ s0.steps k dt = .ok s ∧
      Near N val s.f
        ((upwindStep N (upDir (v.map val)) (upCoeff (val dt) (v.map val) (L.map val) N))^[k.toNat] cornerField)
        (grown N.length r (4 * η) k.toNat 1 - 1) := by
  obtain ⟨s0, s, e, e2, h⟩ := C54_python_field N hpos hcells haxis v L hv hL hcast dt k
  refine ⟨s0, s, e, e2, Near.of_stores h ?_⟩
  have h2 := (scheme_error H (maxNorm N) hdt hLpos hc (mul_nonneg (by norm_num) H.η_nonneg)
    (change_python H hn (coeff_le_one hdt hLpos hc)) cornerField zero_le_one
    (fun g _ => abs_corner H g) k.toNat).2
  have e3 : (fun g => val (cornerField g : R)) = (cornerField : List Nat → K) := funext (val_corner H)
  rw [mul_one, e3, show 3 * η + η = 4 * η by ring] at h2
  exact h2

/-- C58: upwind.jl and upwind3.jl. -/
theorem C58_julia_error (H : Rounded R K val r η tiny) (N : List Nat) (hpos : ∀ n ∈ N, 0 < n) (hcells : N.prod + 1 < 2 ^ 63)
    (haxis : ∀ n ∈ N, n ≤ 2 ^ 53) (v L : List R)
    (hv : v.length = N.length) (hL : L.length = N.length) (hLpos : ∀ x ∈ L, 0 < val x)
    (hcast : ∀ n : Nat, ((n : Int) : R) = (n : R)) (dt : R) (hdt : 0 ≤ val dt)
    (hc : courant (val dt) (v.map val) (L.map val) N ≤ 1)
    (hn : NormalCoeffs tiny (val dt) (v.map val) (L.map val) N) (k : Int) :
    ∃ s0 s s3 : JlUpwind R, JlUpwind.new N.length v L (N.map fun n : Nat => (n : Int)) = .ok s0 ∧ s0.steps k dt = .ok s ∧
      JlUpwind.run3 N.length v L (N.map fun n : Nat => (n : Int)) k dt = .ok s3 ∧
      NearCol N val s.f
        ((upwindStep N (upDir (v.map val)) (upCoeff (val dt) (v.map val) (L.map val) N))^[k.toNat] cornerField)
        (grown N.length r (4 * η) k.toNat 1 - 1) ∧
      NearCol N val s3.f
        ((upwindStep N (upDir (v.map val)) (upCoeff (val dt) (v.map val) (L.map val) N))^[k.toNat] cornerField)
        (grown N.length r (4 * η) k.toNat 1 - 1) := by
  obtain ⟨s0, s, e, e2, h⟩ := C54_julia_field N hpos hcells v L hv hL hcast dt k
  obtain ⟨s3, e3, h3⟩ := C54_julia3_field N hpos hcells haxis v L hv hL hcast dt k
  have h2 := (scheme_error H (maxNorm N) hdt hLpos hc (mul_nonneg (by norm_num) H.η_nonneg)
    (change_cpp H hn (coeff_le_one hdt hLpos hc)) cornerField zero_le_one
    (fun g _ => abs_corner H g) k.toNat).2
  have e4 : (fun g => val (cornerField g : R)) = (cornerField : List Nat → K) := funext (val_corner H)
  rw [mul_one, e4, show 3 * η + η = 4 * η by ring] at h2
  exact ⟨s0, s, s3, e, e2, e3, NearCol.of_stores h h2, NearCol.of_stores h3 h2⟩

/-- C58: the OpenACC versions, whatever the schedule. -/
theorem C58_acc_error (H : Rounded R K val r η tiny) (a b c : Nat) (ha : 0 < a) (hb : 0 < b) (hc0 : 0 < c)
    (hcells : a * (b * c) < 2 ^ 31) (haxis : a < 2 ^ 30 ∧ b < 2 ^ 30 ∧ c < 2 ^ 30) (v L : List R)
    (hv : v.length = 3) (hL : L.length = 3) (hLpos : ∀ x ∈ L, 0 < val x) (s0 : UpwindAcc R)
    (hnew : UpwindAcc.new 3 v L [(a : Int), b, c] = .ok s0) (dt : R) (hdt : 0 ≤ val dt)
    (hc : courant (val dt) (v.map val) (L.map val) [a, b, c] ≤ 1)
    (hn : NormalCoeffs tiny (val dt) (v.map val) (L.map val) [a, b, c])
    (f0 old0 : List R) (u : List Nat → R) (hf : Stores [a, b, c] f0 u) (hold : old0.length = a * (b * c)) (B : K)
    (hB : 0 ≤ B) (hu : ∀ g, InGrid [a, b, c] g → |val (u g)| ≤ B)
    (T : Nat) (hT : 0 < T) (may : Nat → Nat → Nat → Prop) (k : Nat) :
    (∀ f', s0.Advect1s T may dt k f0 f' → Near [a, b, c] val f'
      ((upwindStep [a, b, c] (upDir (v.map val)) (upCoeff (val dt) (v.map val) (L.map val) [a, b, c]))^[k] fun g => val (u g))
      (grown 3 r (4 * η) k B - B)) ∧
    (∀ s, Covers (s0.region2 k dt) T may → PReach (s0.region2 k dt) T may (UpwindAcc.memory f0 old0) s →
      s.Final (s0.region2 k dt) T → Near [a, b, c] val ((List.range (a * (b * c))).map fun i => s.mem (.f, i))
      ((upwindStep [a, b, c] (upDir (v.map val)) (upCoeff (val dt) (v.map val) (L.map val) [a, b, c]))^[k] fun g => val (u g))
      (grown 3 r (4 * η) k B - B)) := by
  have h2 := (scheme_error H (maxNorm [a, b, c]) hdt hLpos hc (mul_nonneg (by norm_num) H.η_nonneg)
    (change_acc H hn (coeff_le_one hdt hLpos hc)) u hB hu k).2
  rw [mul_one, show 3 * η + η = 4 * η by ring] at h2
  refine ⟨fun f' hf' => Near.of_stores
    (C37_acc_result a b c ha hb hc0 hcells haxis v L hv hL s0 hnew f0 u hf dt T hT may k f' hf') h2, fun s hm hs hfin => ?_⟩
  have h3 := (C37_acc2_executions a b c ha hb hc0 hcells haxis v L hv hL s0 hnew f0 old0 u hf hold k dt T hT may hm s hs).2.2
    hfin
  exact Near.of_stores h3 h2

/-- C58: two fields that are near the same exact field are near each other. -/
theorem near_near {N : List Nat} {f f' : List R} {w : List Nat → K} {e e' : K} (h : Near N val f w e) (h' : Near N val f' w e') :
    ∀ g, InGrid N g → ∃ x y, f[rankOf N g]? = some x ∧ f'[rankOf N g]? = some y ∧ |val x - val y| ≤ e + e' := by
  intro g hg
  obtain ⟨x, hx, h1⟩ := h.2 g hg
  obtain ⟨y, hy, h2⟩ := h'.2 g hg
  refine ⟨x, y, hx, hy, ?_⟩
  have : |val x - val y| ≤ |val x - w g| + |w g - val y| := by
    have := abs_add_le (val x - w g) (w g - val y)
    rwa [sub_add_sub_cancel] at this
  rw [abs_sub_comm (w g)] at this
  linarith

/-- C58: the C++, Fortran and Python versions, which differ in their bits (C54), differ by no more than the rounding errors of
the two programs. -/
theorem C58_versions_close (H : Rounded R K val r η tiny) (N : List Nat) (hN : N ≠ []) (hdim : N.length + 1 < 2 ^ 31)
    (hpos : ∀ n ∈ N, 0 < n) (hcells : N.prod < 2 ^ 31) (haxis : ∀ n ∈ N, n < 2 ^ 30) (v L : List R)
    (hv : v.length = N.length) (hL : L.length = N.length) (hLpos : ∀ x ∈ L, 0 < val x)
    (hcast : ∀ n : Nat, ((n : Int) : R) = (n : R)) (dt : R) (hdt : 0 ≤ val dt)
    (hc : courant (val dt) (v.map val) (L.map val) N ≤ 1)
    (hn : NormalCoeffs tiny (val dt) (v.map val) (L.map val) N)
    (z : K) (hz : ∀ j, j < N.length → (3 + 2 / |cellWidth (L.map val) N j|) * η ≤ z) (k : Nat) :
    ∃ (c c' : Upwind R) (p p' : PyUpwind R) (q : FUpwind R),
      Upwind.new N.length v L N = .ok c ∧ c.advect k dt = .ok c' ∧
      PyUpwind.new v L (N.map fun n : Nat => (n : Int)) = .ok p ∧ p.steps k dt = .ok p' ∧
      FUpwind.new v L (N.map fun n : Nat => (n : Int)) = .ok q ∧ (∃ q', FUpwind.Advances dt k q q') ∧
      ∀ q', FUpwind.Advances dt k q q' → ∀ g, InGrid N g → ∃ x y t, c'.f[rankOf N g]? = some x ∧
        p'.f[rankOf N g]? = some y ∧ q'.f[rankOf N g]? = some t ∧
        |val x - val y| ≤ 2 * (grown N.length r (z + η) k 1 - 1) ∧ |val x - val t| ≤ 2 * (grown N.length r (z + η) k 1 - 1) ∧
        |val y - val t| ≤ 2 * (grown N.length r (z + η) k 1 - 1) := by
  have hg : GoodGrid N := ⟨hpos, hcells, haxis⟩
  have hη := H.η_nonneg
  have hlen : 0 < N.length := List.length_pos_iff.2 hN
  have hz3 : 3 * η ≤ z := by
    refine le_trans ?_ (hz 0 hlen)
    have : 0 ≤ 2 / |cellWidth (L.map val) N 0| := div_nonneg (by norm_num) (abs_nonneg _)
    nlinarith
  have hz0 : 0 ≤ z := by linarith
  have hmono : grown N.length r (4 * η) k 1 ≤ grown N.length r (z + η) k 1 := by
    have h0 := H.r_nonneg
    unfold grown stepUnderflow
    have hp : (0 : K) ≤ (1 + stepError N.length r) ^ k := pow_nonneg (by linarith [stepError_nonneg h0 N.length]) _
    apply mul_le_mul_of_nonneg_left _ hp
    have h1 : (1 + r) ^ N.length * (N.length : K) * (4 * η) ≤ (1 + r) ^ N.length * (N.length : K) * (z + η) :=
      mul_le_mul_of_nonneg_left (by linarith) (mul_nonneg (pow_nonneg (by linarith) _) (Nat.cast_nonneg _))
    linarith [mul_le_mul_of_nonneg_left h1 (Nat.cast_nonneg k)]
  have hcn := new_built (v := v) (L := L) hN (by omega) hg hv hL
  obtain ⟨c', ec, hc'⟩ := C58_upwind_error H N hN (by omega) hpos hcells haxis v L hv hL hLpos _ hcn dt hdt hc hn
    (built v L N).f cornerField (built_stores (v := v) (L := L) hg) 1 zero_le_one
    (fun g _ => abs_corner H g) k
  have e3 : (fun g => val (cornerField g : R)) = (cornerField : List Nat → K) := funext (val_corner H)
  rw [e3, Int.toNat_natCast] at hc'
  obtain ⟨p, p', ep, ep', hp⟩ := C58_python_error H N hpos hcells haxis v L hv hL hLpos hcast dt hdt hc hn k
  rw [Int.toNat_natCast] at hp
  obtain ⟨q, eq, hex, hq⟩ := C58_fortran_error H N hN hdim hpos hcells haxis v L hv hL hLpos hcast dt hdt hc hn z hz0 hz k
  refine ⟨_, c', p, p', q, hcn, ec, ep, ep', eq, hex, fun q' hq' g hgg => ?_⟩
  obtain ⟨x, y, hx, hy, h1⟩ := near_near hc' hp g hgg
  obtain ⟨x', t, hx', ht, h2⟩ := near_near hc' (hq q' hq') g hgg
  obtain ⟨y', t', hy', ht', h3⟩ := near_near hp (hq q' hq') g hgg
  rw [hx] at hx'; injection hx' with hx'; subst hx'
  rw [hy] at hy'; injection hy' with hy'; subst hy'
  rw [ht] at ht'; injection ht' with ht'; subst ht'
  exact ⟨x, y, t, hx, hy, ht, by linarith, by linarith, by linarith⟩

/-- The time step of `main` for equal cells, if it is an ordinary number. -/
theorem mainDt_equal [HasMax R] (c : R) (n : Nat) (hlt : c * (1 / (n : R)) / 1 < HasMax.dblMax)
    (hirr : ¬ c * (1 / (n : R)) / 1 < c * (1 / (n : R)) / 1) :
    Upwind.mainDt c (List.replicate 3 1) (List.replicate 3 1) (List.replicate 3 n) = .ok (c * (1 / (n : R)) / 1) := by
  unfold Upwind.mainDt
  obtain ⟨d, e, _, hd⟩ := forUp_inv (Nat.zero_le 3)
    (fun i (d : R) => (i = 0 → d = HasMax.dblMax) ∧ (0 < i → d = c * (1 / (n : R)) / 1))
    (fun j dt => do
      let dx := (← rd (List.replicate 3 (1 : R)) j) / ((← rd (List.replicate 3 n) j : Nat) : R)
      let val := c * dx / (← rd (List.replicate 3 (1 : R)) j)
      pure (if val < dt then val else dt)) HasMax.dblMax ⟨fun _ => rfl, fun h => by omega⟩
    (by
      rintro i d _ hi ⟨h1, h2⟩
      refine ⟨c * (1 / (n : R)) / 1, ?_, fun h => by omega, fun _ => rfl⟩
      rw [rd_of_lt (by simpa using hi), rd_of_lt (by simpa using hi)]
      simp only [M.ok_bind, M.pure_eq, List.getElem_replicate]
      rcases Nat.eq_zero_or_pos i with h | h
      · rw [h1 h, if_pos hlt]
      · rw [h2 h, if_neg hirr])
  rw [List.length_replicate, e, hd (by omega)]

/-- The time step of `main` in floating-point arithmetic. -/
theorem mainDt_rounded [HasMax R] (H : Rounded R K val r η tiny) (hmax : 1 ≤ val (HasMax.dblMax : R))
    (c : R) (hcr : |val c - 1 / 10| ≤ r * |(1 / 10 : K)|) {n : Nat} (hn : 0 < n) (hn2 : 100 * tiny * n ≤ 1) :
    Upwind.mainDt c (List.replicate 3 1) (List.replicate 3 1) (List.replicate 3 n) = .ok (c * (1 / (n : R)) / 1) ∧
      Rel (6 * r) (val (c * (1 / (n : R)) / 1)) (1 / 10 / (n : K)) := by
  have h0 := H.r_nonneg
  have h1 := H.r_le
  have ht := H.tiny_nonneg
  have hq1 : (1 : K) ≤ n := by exact_mod_cast hn
  have hq : (0 : K) < n := by linarith
  have hw : Normal tiny (val (1 : R) / (n : K)) := by
    right
    rw [H.one, abs_of_pos (by positivity), le_div_iff₀ hq]
    nlinarith
  have r1 := width_rel H (n := (n : R)) (m := (n : K)) (by rw [one_mul]; exact H.nat n) 1 hw
  rw [H.one] at r1
  have hw2 : Normal tiny ((1 / 10 : K) * (1 / (n : K))) := by
    right
    rw [abs_of_pos (by positivity), ← mul_div_assoc, mul_one, le_div_iff₀ hq]
    nlinarith
  have r2 := mul_rel H (x := c) (y := 1 / (n : R)) (p := 1) (q := 21 / 10) (t := 43 / 10) (by norm_num) (by norm_num)
    (by rw [one_mul]; exact hcr) r1 hw2 (by norm_num) (by norm_num)
  have r3 := div_rel H (x := c * (1 / (n : R))) (y := 1) (p := 43 / 10) (q := 0) (m := 43 / 10) (t := 6) (le_refl 0)
    (by norm_num) r2 (self_rel _) (by rw [H.one, div_one]; exact hw2) (by norm_num) (by norm_num) (by norm_num) (by norm_num)
  rw [H.one, div_one] at r3
  have e1 : (1 / 10 : K) * (1 / (n : K)) = 1 / 10 / n := by ring
  rw [e1] at r3
  refine ⟨?_, r3⟩
  have hlt : c * (1 / (n : R)) / 1 < HasMax.dblMax := by
    rw [H.lt]
    have h2 := r3.abs_le
    have h3 : (0 : K) ≤ 1 / 10 / (n : K) := by positivity
    have h4 : 1 / 10 / (n : K) ≤ 1 / 10 := div_le_self (by norm_num) hq1
    rw [abs_of_nonneg h3] at h2
    have h5 : (1 + 6 * r) * (1 / 10 / (n : K)) ≤ 2 * (1 / 10) := mul_le_mul (by linarith) h4 h3 (by norm_num)
    have := le_abs_self (val (c * (1 / (n : R)) / 1))
    linarith
  have hirr : ¬ c * (1 / (n : R)) / 1 < c * (1 / (n : R)) / 1 := by rw [H.lt]; exact lt_irrefl _
  exact mainDt_equal c n hlt hirr

/-- What the program upwind.cxx computes with in floating-point arithmetic meets the hypotheses of the theorems above. -/
theorem driver_hyps [HasMax R] (H : Rounded R K val r η tiny) (hmax : 1 ≤ val (HasMax.dblMax : R)) (htiny : 2 ^ 20 * tiny ≤ 1)
    (c : R) (hcr : |val c - 1 / 10| ≤ r * |(1 / 10 : K)|) (n : Nat) (hn : 0 < n) (hn2 : n ≤ 1290) :
    Upwind.mainDt c (List.replicate 3 1) (List.replicate 3 1) (List.replicate 3 n) = .ok (c * (1 / (n : R)) / 1) ∧
    0 < val (c * (1 / (n : R)) / 1) ∧
    NormalCoeffs tiny (val (c * (1 / (n : R)) / 1)) ((List.replicate 3 (1 : R)).map val) ((List.replicate 3 (1 : R)).map val)
      (List.replicate 3 n) ∧
    courant (val (c * (1 / (n : R)) / 1)) ((List.replicate 3 (1 : R)).map val) ((List.replicate 3 (1 : R)).map val)
      (List.replicate 3 n) ≤ 1 := by
  have h0 := H.r_nonneg
  have h1 := H.r_le
  have ht := H.tiny_nonneg
  have hq1 : (1 : K) ≤ n := by exact_mod_cast hn
  have hq : (0 : K) < n := by linarith
  have hq2 : (n : K) ≤ 1290 := by exact_mod_cast hn2
  obtain ⟨edt, hrel⟩ := mainDt_rounded H hmax c hcr hn (by nlinarith)
  generalize c * (1 / (n : R)) / 1 = dt at edt hrel ⊢
  have hpos10 : (0 : K) < 1 / 10 / n := by positivity
  have hr6 : |val dt - 1 / 10 / (n : K)| ≤ 6 / 100 * (1 / 10 / n) := by
    have := hrel.mono (by linarith : 6 * r ≤ 6 / 100)
    unfold Rel at this
    rwa [abs_of_pos hpos10] at this
  rw [abs_le] at hr6
  have hlow : 9 / 100 / (n : K) ≤ val dt := by
    have e : 9 / 100 / (n : K) = 9 / 10 * (1 / 10 / n) := by ring
    rw [e]; linarith
  have hupp : val dt ≤ 11 / 100 / (n : K) := by
    have e : 11 / 100 / (n : K) = 11 / 10 * (1 / 10 / n) := by ring
    rw [e]; linarith
  have hdt : 0 < val dt := lt_of_lt_of_le (by positivity) hlow
  have ev : ∀ j, j < 3 → ((List.replicate 3 (1 : R)).map val).getD j 0 = 1 := by
    intro j hj
    rw [List.map_replicate, List.getD_replicate _ hj, H.one]
  have ew : ∀ j, j < 3 → cellWidth ((List.replicate 3 (1 : R)).map val) (List.replicate 3 n) j = 1 / (n : K) := by
    intro j hj
    unfold cellWidth
    rw [ev j hj, List.getD_replicate _ hj]
  have hbig : ∀ x : K, 1 / 2 ^ 18 ≤ x → Normal tiny x := by
    intro x hx
    right
    have hx0 : 0 < x := lt_of_lt_of_le (by positivity) hx
    rw [abs_of_pos hx0]
    refine le_trans ?_ hx
    rw [le_div_iff₀ (by positivity)]
    linarith
  have hinv : 1 / 1290 ≤ 1 / (n : K) := one_div_le_one_div_of_le hq hq2
  have hdtn : val dt * n ≤ 11 / 100 := by
    have := mul_le_mul_of_nonneg_right hupp hq.le
    rwa [div_mul_cancel₀ _ hq.ne'] at this
  have hdtn2 : 9 / 100 ≤ val dt * n := by
    have := mul_le_mul_of_nonneg_right hlow hq.le
    rwa [div_mul_cancel₀ _ hq.ne'] at this
  have hnorm : NormalCoeffs tiny (val dt) ((List.replicate 3 (1 : R)).map val) ((List.replicate 3 (1 : R)).map val)
      (List.replicate 3 n) := by
    have hl : (List.replicate 3 n).length = 3 := List.length_replicate
    constructor <;> intro j hj <;> rw [hl] at hj
    · rw [ev j hj]; exact hbig _ (by norm_num)
    · rw [ev j hj, mul_one]
      refine hbig _ (le_trans ?_ hlow)
      have e : 9 / 100 / (n : K) = 9 / 100 * (1 / n) := by ring
      rw [e]
      have : (1 : K) / 2 ^ 18 ≤ 9 / 100 * (1 / 1290) := by norm_num
      linarith
    · rw [ew j hj]
      have : (1 : K) / 2 ^ 18 ≤ 1 / 1290 := by norm_num
      exact hbig _ (this.trans hinv)
    · rw [ev j hj, ew j hj, one_div_one_div]
      have : (1 : K) / 2 ^ 18 ≤ 1 := by norm_num
      exact hbig _ (this.trans hq1)
    · rw [ev j hj, ew j hj, mul_one, div_div_eq_mul_div, div_one]
      have : (1 : K) / 2 ^ 18 ≤ 9 / 100 := by norm_num
      exact hbig _ (this.trans hdtn2)
  have hcour : courant (val dt) ((List.replicate 3 (1 : R)).map val) ((List.replicate 3 (1 : R)).map val)
      (List.replicate 3 n) ≤ 1 := by
    rw [courant_eq, List.length_replicate]
    have : ∀ j ∈ range 3, val dt * |((List.replicate 3 (1 : R)).map val).getD j 0| /
        cellWidth ((List.replicate 3 (1 : R)).map val) (List.replicate 3 n) j = val dt * n := by
      intro j hj
      rw [ev j (mem_range.1 hj), ew j (mem_range.1 hj), abs_one, mul_one, div_div_eq_mul_div, div_one]
    rw [sum_congr rfl this, sum_const, card_range, nsmul_eq_mul]
    push_cast
    linarith
  exact ⟨edt, hdt, hnorm, hcour⟩

/-- C58: the program upwind.cxx in floating-point arithmetic, `c` being the rounded literal 0.1: any number of cells it
supports, any number of steps. -/
theorem C58_driver [HasMax R] (H : Rounded R K val r η tiny) (hmax : 1 ≤ val (HasMax.dblMax : R)) (htiny : 2 ^ 20 * tiny ≤ 1)
    (c : R) (hcr : |val c - 1 / 10| ≤ r * |(1 / 10 : K)|) (n : Nat) (hn : 0 < n) (hn2 : n ≤ 1290) (k : Int) :
    ∃ s' : Upwind R, Upwind.mainRun c n k = .ok s' ∧
      |val s'.checksum - 1| ≤ (1 + r) ^ (n ^ 3) * (grown 3 r (4 * η * (n ^ 3 : Nat)) k.toNat 1 + (n ^ 3 : Nat) * η) - 1 ∧
      ∀ x ∈ s'.f, -(grown 3 r (4 * η) k.toNat 1 - 1) ≤ val x ∧ val x ≤ 1 + (grown 3 r (4 * η) k.toNat 1 - 1) := by
  obtain ⟨edt, hdt, hnorm, hcour⟩ := driver_hyps H hmax htiny c hcr n hn hn2
  generalize c * (1 / (n : R)) / 1 = dt at edt hdt hnorm hcour
  have hp : ∀ m ∈ List.replicate 3 n, 0 < m := by intro m hm; rw [(List.mem_replicate.1 hm).2]; exact hn
  have hcells : (List.replicate 3 n).prod < 2 ^ 31 := by
    have : n * (n * n) ≤ 1290 * (1290 * 1290) := Nat.mul_le_mul hn2 (Nat.mul_le_mul hn2 hn2)
    simp only [List.prod_replicate]
    have e : n ^ 3 = n * (n * n) := by ring
    rw [e]; omega
  have haxis : ∀ m ∈ List.replicate 3 n, m < 2 ^ 30 := by
    intro m hm; rw [(List.mem_replicate.1 hm).2]; omega
  have hLpos : ∀ x ∈ List.replicate 3 (1 : R), 0 < val x := by
    intro x hx; rw [(List.mem_replicate.1 hx).2, H.one]; exact zero_lt_one
  have hg : GoodGrid (List.replicate 3 n) := ⟨hp, hcells, haxis⟩
  have hW : (List.replicate 3 n).prod % W = (List.replicate 3 n).prod := Nat.mod_eq_of_lt (by unfold W; omega)
  have hcn := new_built (N := List.replicate 3 n) (v := List.replicate 3 (1 : R)) (L := List.replicate 3 (1 : R)) (by simp)
    (by simp) hg (by simp) (by simp)
  have hmem : ∀ x ∈ (built (List.replicate 3 (1 : R)) (List.replicate 3 (1 : R)) (List.replicate 3 n)).f,
      0 ≤ val x ∧ val x ≤ 1 := by
    intro x hx
    simp only [built] at hx
    rcases List.mem_or_eq_of_mem_set hx with h | h
    · rw [(List.mem_replicate.1 h).2, H.zero]; exact ⟨le_refl _, zero_le_one⟩
    · rw [h, H.one]; exact ⟨zero_le_one, le_refl _⟩
  have hlen : (built (List.replicate 3 (1 : R)) (List.replicate 3 (1 : R)) (List.replicate 3 n)).f.length =
      (List.replicate 3 n).prod := by simp only [built, List.length_set, List.length_replicate]; exact hW
  obtain ⟨s1, e1, h3⟩ := C58_checksum_error H (List.replicate 3 n) (by simp) (by simp) hp hcells haxis
    (List.replicate 3 1) (List.replicate 3 1) (by simp) (by simp) hLpos _ hcn dt hdt.le hcour hnorm _ hlen k
  obtain ⟨s2, e2, _, h4⟩ := C58_range H (List.replicate 3 n) (by simp) (by simp) hp hcells haxis
    (List.replicate 3 1) (List.replicate 3 1) (by simp) (by simp) hLpos _ hcn dt hdt.le hcour hnorm _ hlen 0 1 1 hmem
    (by norm_num) (le_refl _) zero_le_one k
  rw [e1] at e2
  injection e2 with e2
  subst e2
  obtain ⟨m, hm⟩ : ∃ m, (List.replicate 3 n).prod = m + 1 := ⟨(List.replicate 3 n).prod - 1, by
    have := List.prod_pos hp; omega⟩
  have esum : ((built (List.replicate 3 (1 : R)) (List.replicate 3 (1 : R)) (List.replicate 3 n)).f.map val).sum = 1 := by
    simp only [built, hW]
    rw [hm, List.replicate_succ, List.set_cons_zero, List.map_cons, List.sum_cons, List.map_replicate, H.zero, H.one]
    simp
  have eabs : ((built (List.replicate 3 (1 : R)) (List.replicate 3 (1 : R)) (List.replicate 3 n)).f.map
      fun x => |val x|).sum = 1 := by
    simp only [built, hW]
    rw [hm, List.replicate_succ, List.set_cons_zero, List.map_cons, List.sum_cons, List.map_replicate, H.zero, H.one]
    simp
  rw [esum, eabs, List.length_replicate, List.prod_replicate] at h3
  refine ⟨s1, ?_, h3, fun x hx => ?_⟩
  · unfold Upwind.mainRun
    rw [szOfInt_ofNat (by unfold W; omega)]
    simp only [List.length_replicate]
    rw [edt]
    simp only [M.ok_bind]
    rw [List.length_replicate] at hcn
    rw [hcn]
    exact e1
  · have := h4 x hx
    rw [List.length_replicate] at this
    constructor <;> linarith [this.1, this.2]

end

/-! ### IEEE double -/

/-- Bernoulli's inequality, upside down. -/
theorem pow_mul_le_one {x y : ℚ} (hx : 0 ≤ x) (hx1 : x ≤ 1) {n : Nat} (h : n * x ≤ y) : (1 + x) ^ n * (1 - y) ≤ 1 := by
  have h1 : 1 + (n : ℚ) * (-x) ≤ (1 + -x) ^ n := one_add_mul_le_pow (by linarith) n
  have h2 : (1 + x) ^ n * (1 - y) ≤ (1 + x) ^ n * (1 + -x) ^ n :=
    mul_le_mul_of_nonneg_left (by linarith) (pow_nonneg (by linarith) _)
  rw [← mul_pow] at h2
  refine h2.trans (pow_le_one₀ ?_ ?_) <;> nlinarith

/-- `X (1 - a) ≤ 1` and `Y (1 - b) ≤ 1` combine. -/
theorem combine {X Y a b : ℚ} (hY : 0 ≤ Y) (ha : 0 ≤ a) (hb : 0 ≤ b) (hb1 : b ≤ 1) (hX : 0 ≤ X)
    (h1 : X * (1 - a) ≤ 1) (h2 : Y * (1 - b) ≤ 1) : X * Y * (1 - (a + b)) ≤ 1 := by
  have h3 : X * Y * (1 - (a + b)) ≤ X * Y * ((1 - a) * (1 - b)) :=
    mul_le_mul_of_nonneg_left (by nlinarith) (mul_nonneg hX hY)
  have h4 : X * Y * ((1 - a) * (1 - b)) = (X * (1 - a)) * (Y * (1 - b)) := by ring
  have h5 : (X * (1 - a)) * (Y * (1 - b)) ≤ 1 * (Y * (1 - b)) :=
    mul_le_mul_of_nonneg_right h1 (mul_nonneg hY (by linarith))
  linarith

theorem one_add_mul_sub {c : ℚ} : (1 + c) * (1 - c) ≤ 1 := by nlinarith [mul_self_nonneg c]

theorem le_of_combined {X s : ℚ} (h : X * (1 - s) ≤ 1) (hs : 0 ≤ s) (hs1 : s ≤ 1 / 2) : X - 1 ≤ 2 * s := by
  nlinarith

theorem tiny_le (n : Nat) (h : 200 ≤ n) : (1 : ℚ) / 2 ^ n ≤ 1 / 2 ^ 200 :=
  one_div_le_one_div_of_le (by positivity) (pow_le_pow_right₀ (by norm_num) h)

/-- The error of `k` steps with the rounding of `double`. -/
theorem grown_double {η : ℚ} (h0 : 0 ≤ η) (hη : η ≤ 1 / 2 ^ 150) (k : Nat) :
    grown 3 (1 / 2 ^ 53) η k 1 * (1 - k * (22 / 2 ^ 53)) ≤ 1 ∨ (1 : ℚ) < k * (22 / 2 ^ 53) := by
  by_cases hk : (1 : ℚ) < k * (22 / 2 ^ 53)
  · right; exact hk
  left
  have hk0 : (0 : ℚ) ≤ k := Nat.cast_nonneg k
  have hE : stepError 3 (1 / 2 ^ 53 : ℚ) ≤ 215 / 10 / 2 ^ 53 := by unfold stepError; norm_num
  have hE0 : 0 ≤ stepError 3 (1 / 2 ^ 53 : ℚ) := stepError_nonneg (by positivity) 3
  have hT : stepUnderflow 3 (1 / 2 ^ 53) η ≤ 5 / 10 / 2 ^ 53 := by
    unfold stepUnderflow
    have h1 : ((1 + 1 / 2 ^ 53 : ℚ) ^ 3 * ((3 : Nat) : ℚ)) * η ≤ ((1 + 1 / 2 ^ 53 : ℚ) ^ 3 * ((3 : Nat) : ℚ)) * (1 / 2 ^ 150) :=
      mul_le_mul_of_nonneg_left hη (by positivity)
    refine h1.trans ?_
    norm_num
  have hT0 : 0 ≤ stepUnderflow 3 (1 / 2 ^ 53) η := stepUnderflow_nonneg (by positivity) h0 3
  unfold grown
  set E := stepError 3 (1 / 2 ^ 53 : ℚ)
  set t := stepUnderflow 3 (1 / 2 ^ 53) η
  have hkE : (k : ℚ) * E ≤ k * (215 / 10 / 2 ^ 53) := mul_le_mul_of_nonneg_left hE hk0
  have hkt : (k : ℚ) * t ≤ k * (5 / 10 / 2 ^ 53) := mul_le_mul_of_nonneg_left hT hk0
  have hkt0 : 0 ≤ (k : ℚ) * t := mul_nonneg hk0 hT0
  have e : (k : ℚ) * (22 / 2 ^ 53) = k * (215 / 10 / 2 ^ 53) + k * (5 / 10 / 2 ^ 53) := by ring
  rw [e] at hk ⊢
  have a1 := pow_mul_le_one hE0 (hE.trans (by norm_num)) hkE
  have a2 : (1 + k * t) * (1 - k * (5 / 10 / 2 ^ 53)) ≤ 1 := by nlinarith [one_add_mul_sub (c := (k : ℚ) * t)]
  exact combine (by linarith) (mul_nonneg hk0 (by norm_num)) (mul_nonneg hk0 (by norm_num))
    (by have : (0 : ℚ) ≤ k * (215 / 10 / 2 ^ 53) := mul_nonneg hk0 (by norm_num)
        linarith [not_lt.1 hk]) (pow_nonneg (by linarith) _) a1 a2

/-- The bounds of C58 with the rounding of `double`, in numbers. -/
theorem driver_bounds_double (n : Nat) (hn2 : n ≤ 1290) (k : Int) (hk : k < 2 ^ 31) :
    (1 + 1 / 2 ^ 53 : ℚ) ^ (n ^ 3) * (grown 3 (1 / 2 ^ 53 : ℚ) (4 * (1 / 2 ^ 1075) * ((n ^ 3 : Nat) : ℚ)) k.toNat 1 +
      ((n ^ 3 : Nat) : ℚ) * (1 / 2 ^ 1075)) - 1 ≤ ((n : ℚ) ^ 3 + 22 * k.toNat + 1) / 2 ^ 52 ∧
    grown 3 (1 / 2 ^ 53 : ℚ) (4 * (1 / 2 ^ 1075)) k.toNat 1 - 1 ≤ (22 * k.toNat / 2 ^ 52 : ℚ) := by
  have hη := tiny_le 1075 (by norm_num)
  have hη0 : (0 : ℚ) ≤ 1 / 2 ^ 1075 := by positivity
  generalize (1 : ℚ) / 2 ^ 1075 = η at *
  have hkn : (k.toNat : ℚ) ≤ 2 ^ 31 := by
    have : k.toNat ≤ 2 ^ 31 := by omega
    exact_mod_cast this
  have hk0 : (0 : ℚ) ≤ (k.toNat : ℚ) := Nat.cast_nonneg _
  have hM : ((n ^ 3 : Nat) : ℚ) ≤ 2 ^ 31 := by
    have : n ^ 3 ≤ 1290 ^ 3 := Nat.pow_le_pow_left hn2 3
    have : n ^ 3 ≤ 2 ^ 31 := this.trans (by norm_num)
    exact_mod_cast this
  have hM0 : (0 : ℚ) ≤ ((n ^ 3 : Nat) : ℚ) := Nat.cast_nonneg _
  set kk := k.toNat
  set M : Nat := n ^ 3 with hMd
  have hsmall : ¬ (1 : ℚ) < kk * (22 / 2 ^ 53) := by
    rw [not_lt]
    refine (mul_le_mul_of_nonneg_right hkn (by norm_num)).trans (by norm_num)
  have hMη : (M : ℚ) * η ≤ 1 / 2 ^ 169 := by
    have := mul_le_mul hM hη hη0 (by positivity)
    refine this.trans ?_
    norm_num
  have hMη0 : 0 ≤ (M : ℚ) * η := mul_nonneg hM0 hη0
  have g1 := (grown_double (η := 4 * η) (by linarith) (by linarith [(by norm_num : (4 : ℚ) * (1 / 2 ^ 200) ≤ 1 / 2 ^ 150)])
    kk).resolve_right hsmall
  have g2 := (grown_double (η := 4 * η * M) (by nlinarith) (by
    have e : 4 * η * (M : ℚ) = 4 * (M * η) := by ring
    rw [e]
    linarith [(by norm_num : (4 : ℚ) * (1 / 2 ^ 169) ≤ 1 / 2 ^ 150)]) kk).resolve_right hsmall
  have hgrow : ∀ z : ℚ, 0 ≤ z → (1 : ℚ) ≤ grown 3 (1 / 2 ^ 53) z kk 1 := by
    intro z hz
    unfold grown
    have b1 : (1 : ℚ) ≤ (1 + stepError 3 (1 / 2 ^ 53 : ℚ)) ^ kk :=
      one_le_pow₀ (by linarith [stepError_nonneg (r := (1 / 2 ^ 53 : ℚ)) (by positivity) 3])
    have b2 : 0 ≤ (kk : ℚ) * stepUnderflow 3 (1 / 2 ^ 53) z := mul_nonneg hk0 (stepUnderflow_nonneg (by positivity) hz 3)
    nlinarith
  have hb0 : (0 : ℚ) ≤ kk * (22 / 2 ^ 53) := mul_nonneg hk0 (by norm_num)
  have hb1 : (kk : ℚ) * (22 / 2 ^ 53) ≤ 1 / 2 ^ 15 := by
    refine (mul_le_mul_of_nonneg_right hkn (by norm_num)).trans (by norm_num)
  refine ⟨?_, ?_⟩
  · have p1 := pow_mul_le_one (x := 1 / 2 ^ 53) (by positivity) (by norm_num) (le_refl ((M : ℚ) * (1 / 2 ^ 53)))
    have hMr : (M : ℚ) * (1 / 2 ^ 53) ≤ 1 / 2 ^ 22 := by
      refine (mul_le_mul_of_nonneg_right hM (by norm_num)).trans (by norm_num)
    have hMr0 : (0 : ℚ) ≤ M * (1 / 2 ^ 53) := mul_nonneg hM0 (by norm_num)
    have hG := hgrow (4 * η * M) (mul_nonneg (by linarith) hM0)
    set G := grown 3 (1 / 2 ^ 53) (4 * η * M) kk 1
    have hX : (0 : ℚ) ≤ (1 + 1 / 2 ^ 53) ^ M := by positivity
    have p2 := combine (by linarith) hMr0 hb0 (by linarith [(by norm_num : (1 : ℚ) / 2 ^ 15 ≤ 1)]) hX p1 g2
    have p3 := combine (X := (1 + 1 / 2 ^ 53) ^ M * G) (Y := 1 + M * η) (b := M * η) (by linarith)
      (by linarith) hMη0 (hMη.trans (by norm_num)) (mul_nonneg hX (by linarith)) p2 one_add_mul_sub
    have p4 := le_of_combined p3 (by linarith) (by
      have : (1 : ℚ) / 2 ^ 22 + 1 / 2 ^ 15 + 1 / 2 ^ 169 ≤ 1 / 2 := by norm_num
      linarith)
    have p5 : (1 + 1 / 2 ^ 53) ^ M * (G + M * η) ≤ (1 + 1 / 2 ^ 53) ^ M * G * (1 + M * η) := by
      rw [mul_assoc]
      apply mul_le_mul_of_nonneg_left _ hX
      nlinarith
    have p6 : ((n : ℚ) ^ 3 + 22 * kk + 1) / 2 ^ 52 = 2 * (M * (1 / 2 ^ 53) + kk * (22 / 2 ^ 53) + 1 / 2 ^ 53) := by
      rw [hMd]; push_cast; ring
    rw [p6]
    have p7 : (1 : ℚ) / 2 ^ 169 ≤ 1 / 2 ^ 53 := by norm_num
    linarith
  · have q1 := le_of_combined g1 hb0 (by linarith [(by norm_num : (1 : ℚ) / 2 ^ 15 ≤ 1 / 2)])
    have q2 : (22 * kk / 2 ^ 52 : ℚ) = 2 * (kk * (22 / 2 ^ 53)) := by ring
    rw [q2]
    linarith

/-- C58: upwind.cxx with the rounding of IEEE `double` (including underflow): for every number of cells the program supports
and every `int` number of steps the check sum it prints is within `(cells + 22 steps + 1) / 2^52` of 1, and all values are in
[0, 1] up to `22 steps / 2^52`. -/
theorem C58_driver_double (n : Nat) (hn : 0 < n) (hn2 : n ≤ 1290) (k : Int) (hk : k < 2 ^ 31) :
    ∃ s' : Upwind Dbl, Upwind.mainRun (⟨rnd (1 / 10)⟩ : Dbl) n k = .ok s' ∧
      |s'.checksum.val - 1| ≤ ((n : ℚ) ^ 3 + 22 * k.toNat + 1) / 2 ^ 52 ∧
      ∀ x ∈ s'.f, -(22 * k.toNat / 2 ^ 52 : ℚ) ≤ x.val ∧ x.val ≤ 1 + 22 * k.toNat / 2 ^ 52 := by
  have hmax : (1 : ℚ) ≤ (HasMax.dblMax : Dbl).val := by decide +kernel
  have htiny : (2 : ℚ) ^ 20 * (1 / 2 ^ 1022) ≤ 1 := by
    have := tiny_le 1022 (by norm_num)
    have h2 : (2 : ℚ) ^ 20 * (1 / 2 ^ 200) ≤ 1 := by norm_num
    exact le_trans (mul_le_mul_of_nonneg_left this (by positivity)) h2
  obtain ⟨s', e, h1, h2⟩ := C58_driver Dbl.rounded hmax htiny ⟨rnd (1 / 10)⟩
    ((rnd_roundsTo (1 / 10)).2 (Or.inr (by
      rw [abs_of_pos (by norm_num)]
      exact (tiny_le 1022 (by norm_num)).trans (by norm_num)))) n hn hn2 k
  obtain ⟨b1, b2⟩ := driver_bounds_double n hn2 k hk
  refine ⟨s', e, h1.trans b1, fun x hx => ?_⟩
  have := h2 x hx
  constructor <;> linarith [this.1, this.2]

/-! ### The hypotheses are met -/

/-- `double` numbers on a 2 x 3 grid, velocities of both signs, total Courant number 1/2: the hypotheses of the general
theorems of C58 (`z` for the Fortran versions). -/
example : Rounded Dbl ℚ Dbl.val (1 / 2 ^ 53) (1 / 2 ^ 1075) (1 / 2 ^ 1022) ∧
    (∀ x ∈ ([1, ⟨3⟩] : List Dbl), 0 < x.val) ∧ (∀ n : Nat, ((n : Int) : Dbl) = (n : Dbl)) ∧
    courant (1 / 8 : ℚ) (([1, ⟨-2⟩] : List Dbl).map Dbl.val) (([1, ⟨3⟩] : List Dbl).map Dbl.val) [2, 3] = 1 / 2 ∧
    NormalCoeffs (1 / 2 ^ 1022) (1 / 8 : ℚ) (([1, ⟨-2⟩] : List Dbl).map Dbl.val) (([1, ⟨3⟩] : List Dbl).map Dbl.val) [2, 3] ∧
    (∀ j, j < 2 → (3 + 2 / |cellWidth (([1, ⟨3⟩] : List Dbl).map Dbl.val) [2, 3] j|) * (1 / 2 ^ 1075) ≤ (1 / 2 ^ 1072 : ℚ)) := by
  refine ⟨Dbl.rounded, by decide +kernel, fun n => ?_, by decide +kernel, ?_, ?_⟩
  · show (⟨rnd ((n : Int) : ℚ)⟩ : Dbl) = ⟨rnd (n : ℚ)⟩
    rw [Int.cast_natCast]
  · have h2 : ([2, 3] : List Nat).length = 2 := rfl
    constructor <;> intro j hj <;> rw [h2] at hj <;> unfold Normal <;> revert j <;> decide +kernel
  · decide +kernel

/-- With the default arguments of the program (128 cells along each axis, 10 steps) the check sum is within 10^-9 of 1. -/
example : ∃ s' : Upwind Dbl, Upwind.mainRun (⟨rnd (1 / 10)⟩ : Dbl) (128 : Nat) 10 = .ok s' ∧
    |s'.checksum.val - 1| ≤ 1 / 10 ^ 9 := by
  obtain ⟨s', e, h, _⟩ := C58_driver_double 128 (by norm_num) (by norm_num) 10 (by norm_num)
  refine ⟨s', e, h.trans ?_⟩
  rw [show Int.toNat 10 = 10 from rfl]
  norm_num

end Fidi
