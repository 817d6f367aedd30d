import Verif.Lemmas.IeeeFilter
import Verif.Lemmas.CubeDecompDouble
import Verif.Props.FilterRounding
import Verif.Props.Ieee

/-
Property C69 for the filter: absence of overflow. `Dbl` are doubles without limit of range, `F64` IEEE doubles with overflow,
infinities and NaN.
-/
set_option linter.unusedSectionVars false
set_option exponentiation.threshold 1100

namespace Fidi
open Spec Upwind Finset

local notation "ρ₀" => (1 / 2 ^ 53 : ℚ)
local notation "η₀" => (1 / 2 ^ 1075 : ℚ)

section
variable {R : Type} [Zero R] [Add R]

/-- The local sums of all ranks. -/
theorem local_sums {c : Cfg R} (hg : c.Good) {w : World R} (hsh : Ranks c (fun x f => Shape c x c.tab f) w) (input : Bool) :
    ∃ ps, w.mapM (fun f => f.localSum input) = .ok ps ∧ ps.map Prod.fst =
      (w.map fun f => if input then f.inData else f.outData).map fun l => l.foldl (· + ·) 0 := by
  obtain ⟨ps, e1, hl, hP⟩ := mapM_ok w (fun f => f.localSum input)
    (fun i p => ∃ f, w[i]? = some f ∧ p.1 = (if input then f.inData else f.outData).foldl (· + ·) 0) (by
      intro i f hf
      obtain ⟨x, hx, _, hs⟩ := hsh.mem hg (List.mem_of_getElem? hf)
      obtain ⟨f', e⟩ := localSum_fold hg hx hs input
      exact ⟨_, e, f, hf, rfl⟩)
  refine ⟨ps, e1, ?_⟩
  apply List.ext_getElem (by simp [hl])
  intro i h1 h2
  simp only [List.getElem_map]
  have h3 : i < ps.length := by simpa using h1
  obtain ⟨f, hf, hp⟩ := hP i ps[i] (List.getElem?_eq_getElem h3)
  rw [List.getElem?_eq_getElem (by rw [← hl]; exact h3), Option.some_inj] at hf
  rw [hp, ← hf]

end

/-- The check sums of ranks whose data are the same and not too large. -/
theorem check_sum_fin {c : Cfg Dbl} {c' : Cfg F64} (hg : c.Good) (hg' : c'.Good) (hn : c'.nprocs = c.nprocs)
    (hp : c.nprocs ≤ 2 ^ 30) (hL : c.L.prod ≤ 2 ^ 31) {w : World Dbl} {w' : World F64}
    (hsh : Ranks c (fun x f => Shape c x c.tab f) w) (hsh' : Ranks c' (fun x f => Shape c' x c'.tab f) w') (input : Bool)
    (hdata : ∀ (i : Nat) f f', w[i]? = some f → w'[i]? = some f' →
      (if input then f'.inData else f'.outData) = (if input then f.inData else f.outData).map F64.fin)
    (hbd : ∀ f ∈ w, ∀ x ∈ (if input then f.inData else f.outData), |x.val| ≤ 2 ^ 900) (rs' : List F64) :
    (∃ w2', w'.CheckSum input rs' w2') ↔ ∃ rs w2, w.CheckSum input rs w2 ∧ rs' = rs.map F64.fin := by
  obtain ⟨ps, e, hps⟩ := local_sums hg hsh input
  obtain ⟨ps', e', hps'⟩ := local_sums hg' hsh' input
  have hlw : w.length = c.nprocs := hsh.1
  have hlw' : w'.length = w.length := by rw [hlw, ← hn]; exact hsh'.1
  have hlen : ∀ f ∈ w, (if input then f.inData else f.outData).length ≤ 2 ^ 31 := by
    intro f hf
    obtain ⟨x, hx, _, hs⟩ := hsh.mem hg hf
    refine le_trans (le_of_eq ?_) hL
    cases input
    · exact hs.outLen
    · exact hs.inLen
  have hmap : ps'.map Prod.fst = (ps.map Prod.fst).map F64.fin := by
    rw [hps, hps', List.map_map, List.map_map, List.map_map]
    apply List.ext_getElem (by simp [hlw'])
    intro i h1 h2
    have i1 : i < w'.length := by simpa using h1
    have i2 : i < w.length := by omega
    simp only [List.getElem_map, Function.comp_apply]
    rw [hdata i _ _ (List.getElem?_eq_getElem i2) (List.getElem?_eq_getElem i1)]
    exact sum_fin _ (hlen _ (List.getElem_mem _)) (hbd _ (List.getElem_mem _))
  have hsmall : ∀ x ∈ ps.map Prod.fst, |x.val| ≤ 2 ^ 940 := by
    intro x hx
    rw [hps] at hx
    obtain ⟨l, hl, rfl⟩ := List.mem_map.1 hx
    obtain ⟨f, hf, rfl⟩ := List.mem_map.1 hl
    exact fold_le _ (hlen f hf) (hbd f hf)
  have hpl : (ps.map Prod.fst).length ≤ 2 ^ 31 := by
    rw [hps]; simp only [List.length_map, hlw]; omega
  have hzero : ∀ t : Dbl, (List.range w'.length).map (fun r => if r = 0 then F64.fin t else 0) =
      ((List.range w.length).map fun r => if r = 0 then t else 0).map F64.fin := by
    intro t
    rw [List.map_map, hlw']
    apply List.map_congr_left
    intro r _
    show _ = F64.fin (if r = 0 then t else 0)
    split <;> rfl
  constructor
  · rintro ⟨w2', qs, t', eq, _, hsum, rfl⟩
    rw [e'] at eq
    obtain rfl := Except.ok.inj eq
    rw [hmap] at hsum
    obtain ⟨t, rfl, ht⟩ := (mpiSum_fin hpl hsmall t').1 hsum
    exact ⟨_, _, ⟨ps, t, e, rfl, ht, rfl⟩, hzero t⟩
  · rintro ⟨rs, w2, ⟨qs, t, eq, _, hsum, rfl⟩, rfl⟩
    rw [e] at eq
    obtain rfl := Except.ok.inj eq
    refine ⟨_, ps', .fin t, e', rfl, ?_, (hzero t).symm⟩
    rw [hmap]
    exact (mpiSum_fin hpl hsmall _).2 ⟨t, rfl, hsum⟩

/-- The decomposition is the same. -/
theorem same_decomp {nprocs : Nat} {dims d d' : List Nat} (hr : InRange nprocs dims)
    (hb : CubeDecomp.build Dbl CubeDecomp.empty nprocs dims = .ok (true, movedDecomp nprocs dims d 0))
    (hb' : CubeDecomp.build F64 CubeDecomp.empty nprocs dims = .ok (true, movedDecomp nprocs dims d' 0)) : d = d' := by
  have hp := hr.procs
  rw [build_fin CubeDecomp.empty nprocs dims hr.procs1 (by omega) hr.ne hr.pos hr.axes hr.cells, hb] at hb'
  have := congrArg (fun p : Bool × CubeDecomp => p.2.decomp) (Except.ok.inj hb')
  exact this

theorem Cfg.Good.local_le {nprocs : Nat} {dims : List Nat} {R : Type} {c : Cfg R} (hg : c.Good) (hn : c.nprocs = nprocs)
    (hd : c.dims = dims) (hr : InRange nprocs dims) : c.L.prod ≤ 2 ^ 31 := by
  have h1 := hg.prod
  rw [hn, hd] at h1
  have h2 := hr.loc
  have h3 := hr.procs1
  by_contra hlt
  have : nprocs * 2 ^ 31 ≤ nprocs * c.L.prod := Nat.mul_le_mul_left _ (by omega)
  rw [Nat.mul_comm] at h1
  omega

/-- Ranks that hold the same field. -/
theorem data_fin {c : Cfg Dbl} {c' : Cfg F64} (hg : c.Good) (hd : c'.d = c.d) (hdims : c'.dims = c.dims)
    {u : List Nat → Dbl} {u' : List Nat → F64} (hu : ∀ g, InGrid c.dims g → u' g = .fin (u g)) {P : List Nat → Filter Dbl → Prop} {P' : List Nat → Filter F64 → Prop}
    {w : World Dbl} {w' : World F64} (hw : Ranks c P w) (hw' : Ranks c' P' w') (data : Filter Dbl → List Dbl)
    (data' : Filter F64 → List F64) (h1 : ∀ x f, P x f → data f = boxData (c.lo x) (c.hi x) u)
    (h2 : ∀ x f, P' x f → data' f = boxData (c'.lo x) (c'.hi x) u') :
    ∀ (i : Nat) f f', w[i]? = some f → w'[i]? = some f' → data' f' = (data f).map F64.fin := by
  intro i f f' hf hf'
  have hi : i < c.nprocs := by
    rw [← hw.1]
    exact (List.getElem?_eq_some_iff.1 hf).1
  obtain ⟨x, hx, rfl⟩ := hg.coords hi
  have e1 : c'.lo x = c.lo x := by unfold Cfg.lo Cfg.L; rw [hd, hdims]
  have e2 : c'.hi x = c.hi x := by unfold Cfg.hi Cfg.L; rw [hd, hdims]
  rw [h1 x f (hw.2 x f hx hf), h2 x f' (hw'.2 x f' (by rw [hd]; exact hx) (by rw [hd]; exact hf')), e1, e2]
  unfold boxData
  rw [List.map_map]
  apply List.map_congr_left
  intro j _
  exact hu _ (hg.grid hx (tupleAt_inBox false (hg.box hx) j))

theorem data_le {c : Cfg Dbl} (hg : c.Good) {u : List Nat → Dbl} {B : ℚ} (hu : ∀ g, InGrid c.dims g → |(u g).val| ≤ B)
    {P : List Nat → Filter Dbl → Prop} {w : World Dbl} (hw : Ranks c P w) (data : Filter Dbl → List Dbl)
    (h1 : ∀ x f, P x f → data f = boxData (c.lo x) (c.hi x) u) : ∀ f ∈ w, ∀ y ∈ data f, |y.val| ≤ B := by
  intro f hf y hy
  obtain ⟨x, hx, _, hp⟩ := hw.mem hg hf
  rw [h1 x f hp] at hy
  unfold boxData at hy
  obtain ⟨j, _, rfl⟩ := List.mem_map.1 hy
  exact hu _ (hg.grid hx (tupleAt_inBox false (hg.box hx) j))

/-- C69: the filter. `n` applications to a field bounded by `B` do not overflow, nor does the check sum of the result, if the
bounds of C68 stay below 2^900: the IEEE numbers are those that C68 is about. Conditions of C18. -/
theorem C69_filter (nprocs : Nat) (dims : List Nat) (xmins xmaxs : List Dbl)
    (st : StdMap (List Int) Dbl) (u : List Nat → Dbl) (n : Nat) (hr : InRange nprocs dims)
    (hex : ∃ d, ValidDecomp nprocs dims d)
    (hu : ∀ kv ∈ st, AxisOffset dims.length kv.1) (hw : ∀ kv ∈ st, WrapExact dims kv.1)
    (B : ℚ) (hB0 : 0 ≤ B) (hB : ∀ g, InGrid dims g → |(u g).val| ≤ B)
    (hlim : ∀ i, i ≤ n → iterBound (stencilGrowth st.length (1 / 2 ^ 53) 0 * weightSum (stencilVal Dbl.val st))
      (stencilUnderflow st.length (1 / 2 ^ 53) (1 / 2 ^ 1075)) i B ≤ 2 ^ 900) :
    ∃ w w1 w2 w' w1' w2' v, World.new nprocs dims xmins xmaxs st = .ok w ∧ w.setInDataByIndices u = .ok w1 ∧
      w1.iterate n = .ok w2 ∧
      World.new nprocs dims (xmins.map .fin) (xmaxs.map .fin) (st.map fun kv => (kv.1, F64.fin kv.2)) = .ok w' ∧
      w'.setInDataByIndices (fun g => .fin (u g)) = .ok w1' ∧ w1'.iterate n = .ok w2' ∧
      Partition w2' nprocs dims ∧ InputIs w2 v ∧ InputIs w2' (fun g => .fin (v g)) ∧
      ∀ rs', (∃ w3', w2'.CheckSum true rs' w3') ↔ ∃ rs w3, w2.CheckSum true rs w3 ∧ rs' = rs.map .fin := by
  have hu' : ∀ kv ∈ (st.map fun kv => (kv.1, F64.fin kv.2) : StdMap (List Int) F64), AxisOffset dims.length kv.1 := by
    intro kv h
    obtain ⟨p, hp, rfl⟩ := List.mem_map.1 h
    exact hu p hp
  have hw' : ∀ kv ∈ (st.map fun kv => (kv.1, F64.fin kv.2) : StdMap (List Int) F64), WrapExact dims kv.1 := by
    intro kv h
    obtain ⟨p, hp, rfl⟩ := List.mem_map.1 h
    exact hw p hp
  obtain ⟨d, hf, hb⟩ := fine_of_range hr hex xmins xmaxs st (fun kv h => axis_unit (hu kv h))
    (fun d _ kv h => axis_oneHalo (hu kv h) d _) hw
  obtain ⟨d', hf', hb'⟩ := fine_of_range hr hex (xmins.map .fin) (xmaxs.map .fin) _ (fun kv h => axis_unit (hu' kv h))
    (fun d _ kv h => axis_oneHalo (hu' kv h) d _) hw'
  obtain rfl : d = d' := same_decomp hr hb hb'
  obtain ⟨w, e, h0⟩ := world_new hf.toGood hb
  obtain ⟨w1, e1, h1⟩ := world_set hf.toGood h0 u
  obtain ⟨w2, e2, h2⟩ := world_iterate hf n h1
  obtain ⟨w', e', h0'⟩ := world_new hf'.toGood hb'
  obtain ⟨w1', e1', h1'⟩ := world_set hf'.toGood h0' fun g => F64.fin (u g)
  obtain ⟨w2', e2', h2'⟩ := world_iterate hf' n h1'
  have hfin : ∀ g, InGrid dims g → stencilIter dims (st.map fun kv => (kv.1, F64.fin kv.2)) (fun g => F64.fin (u g)) n g =
      .fin (stencilIter dims st u n g) := by
    rw [stencilIter_sh, stencilIter_sh]
    exact shStep_fin st (fun p hp g hg => shiftMod_inGrid hg (hu p hp).1) u _ (fun g _ => rfl) hB0 hB n
      fun i hi => (hlim i hi).trans (by norm_num)
  have hbd : ∀ g, InGrid dims g → |(stencilIter dims st u n g).val| ≤ 2 ^ 900 := by
    intro g hg
    have h := (stencil_error (sh := shiftMod dims) Dbl.rounded (le_refl 0) (maxNorm dims) (stencilNear_self Dbl.val st)
      (fun p hp u b h => maxNorm_shift (by
        obtain ⟨q, hq, rfl⟩ := List.mem_map.1 hp
        exact (hu q hq).1) u b h) u hB n).1
    rw [mul_one] at h
    rw [stencilIter_sh]
    exact (h g hg).trans (hlim n (le_refl n))
  have hp := partition_of hf'.toGood h2' (fun x f h => h.shape)
  refine ⟨w, w1, w2, w', w1', w2', _, e, e1, e2, e', e1', e2', hp,
    input_of hf.toGood h2 (fun x f h => ⟨h.shape, h.data⟩), ?_, fun rs' => ?_⟩
  · have := input_of hf'.toGood h2' (fun x f h => ⟨h.shape, h.data⟩)
    intro f hfm g hg
    rw [this f hfm g hg]
    obtain ⟨x, hx, _, hs⟩ := h2'.mem hf'.toGood hfm
    rw [hs.shape.lo, hs.shape.hi] at hg
    exact congrArg some (hfin g (hf'.toGood.grid hx hg))
  · refine check_sum_fin hf.toGood hf'.toGood rfl hr.procs (hf.toGood.local_le rfl rfl hr)
      ⟨h2.1, fun x f hx hf => (h2.2 x f hx hf).shape⟩ ⟨h2'.1, fun x f hx hf => (h2'.2 x f hx hf).shape⟩ true ?_ ?_ rs'
    · exact data_fin hf.toGood rfl rfl hfin h2 h2' (fun f => f.inData) (fun f => f.inData) (fun x f h => h.data)
        fun x f h => h.data
    · exact data_le hf.toGood hbd h2 (fun f => f.inData) fun x f h => h.data

/-! ### upwindMpi -/

theorem clip_fin (a b : Dbl) : clip (F64.fin a) (F64.fin b) = .fin (clip a b) := by
  unfold clip
  by_cases h : a < b
  · rw [if_pos h, if_pos (F64.fin_lt.2 h)]
  · rw [if_neg h, if_neg (fun h' => h (F64.fin_lt.1 h'))]

/-- The weights of `upwindMpi` do not overflow. -/
theorem driverWeight_fin {n : Nat} (hn : 0 < n) (hn2 : n ≤ 2 ^ 11) :
    driverWeight (F64.fin ⟨rnd (1 / 10)⟩) n = .fin (driverWeight (⟨rnd (1 / 10)⟩ : Dbl) n) ∧
    (1 : F64) - .fin (driverWeight (⟨rnd (1 / 10)⟩ : Dbl) n) - .fin (driverWeight (⟨rnd (1 / 10)⟩ : Dbl) n) -
      .fin (driverWeight (⟨rnd (1 / 10)⟩ : Dbl) n) = .fin (1 - driverWeight (⟨rnd (1 / 10)⟩ : Dbl) n -
        driverWeight (⟨rnd (1 / 10)⟩ : Dbl) n - driverWeight (⟨rnd (1 / 10)⟩ : Dbl) n) ∧
    |(driverWeight (⟨rnd (1 / 10)⟩ : Dbl) n).val| ≤ 1 / 10 * (1 + 13 * ρ₀) ∧
    |(1 - driverWeight (⟨rnd (1 / 10)⟩ : Dbl) n - driverWeight (⟨rnd (1 / 10)⟩ : Dbl) n -
      driverWeight (⟨rnd (1 / 10)⟩ : Dbl) n).val| ≤ 7 / 10 * (1 + 13 * ρ₀) := by
  have hmax : (1 : ℚ) ≤ (HasMax.dblMax : Dbl).val := by decide +kernel
  have htiny : (2 : ℚ) ^ 20 * (1 / 2 ^ 1022) ≤ 1 := by norm_num
  have hcr : |(⟨rnd (1 / 10)⟩ : Dbl).val - 1 / 10| ≤ 1 / 2 ^ 53 * |(1 / 10 : ℚ)| :=
    (rnd_roundsTo (1 / 10)).2 (Or.inr (by
      rw [abs_of_pos (by norm_num)]
      exact (tiny_le 1022 (by norm_num)).trans (by norm_num)))
  have c3 : |(⟨rnd (1 / 10)⟩ : Dbl).val| ≤ 1 := by decide +kernel
  generalize (⟨rnd (1 / 10)⟩ : Dbl) = c at hcr c3
  have hnq : (n : ℚ) ≤ 2 ^ 11 := by exact_mod_cast hn2
  have hn1 : (1 : ℚ) ≤ n := by exact_mod_cast hn
  obtain ⟨d1, d2⟩ := driverWeight_rel Dbl.rounded hmax htiny c hcr hn hn2
  obtain ⟨edt, -⟩ := mainDt_rounded Dbl.rounded hmax c hcr hn (by nlinarith)
  have edt' : driverDt c n = c * (1 / (n : Dbl)) / 1 := Except.ok.inj ((mainDt_driver c n).symm.trans edt)
  have b0 := abs_dbl_nat n
  have big : ∀ x : ℚ, x ≤ 10 ^ 6 → x ≤ maxFinite := fun x hx => le_max (hx.trans (by norm_num))
  have f0 : ((n : Nat) : F64) = .fin (n : Dbl) := F64.fin_nat (big _ (by
    linarith [(by norm_num : (2 : ℚ) * 2 ^ 11 ≤ 10 ^ 6)]))
  have c0 := Dbl.rounded.nat n
  rw [abs_of_nonneg (Nat.cast_nonneg n : (0 : ℚ) ≤ n), abs_le] at c0
  have c1 : 1 / 2 ≤ (n : Dbl).val := by
    have : 1 / 2 ^ 53 * (n : ℚ) ≤ 1 / 2 * n := mul_le_mul_of_nonneg_right (by norm_num) (by linarith)
    linarith [c0.1]
  have b1 := RoundsTo.abs_le (Dbl.rounded.div 1 (n : Dbl))
  have c2 : |(1 : Dbl).val / (n : Dbl).val| ≤ 2 := by
    rw [Dbl.rounded.one, abs_of_pos (by positivity), div_le_iff₀ (by linarith)]
    linarith
  have f1 : (1 : F64) / .fin (n : Dbl) = .fin (1 / (n : Dbl)) := F64.fin_div (dbl_nat_ne hn) (big _ (by linarith))
  -- the cell width is not zero
  have hne : (1 / (n : Dbl)).val ≠ 0 := by
    intro h
    have h1 := (Dbl.rounded.div 1 (n : Dbl)).1
    have h2 : (1 : Dbl).val / (n : Dbl).val ≥ 1 / 2 ^ 12 := by
      rw [Dbl.rounded.one, ge_iff_le, div_le_div_iff_of_pos_left zero_lt_one (by positivity) (by linarith)]
      have := (le_abs_self _).trans b0
      linarith
    rw [h, zero_sub, abs_neg, abs_of_pos (lt_of_lt_of_le (by norm_num) h2)] at h1
    have h3 := tiny_le 1075 (by norm_num)
    have h4 : (1 : ℚ) / 2 ^ 53 * ((1 : Dbl).val / (n : Dbl).val) ≤ 1 / 2 * ((1 : Dbl).val / (n : Dbl).val) :=
      mul_le_mul_of_nonneg_right (by norm_num) (le_trans (by norm_num) h2)
    have h5 : (1 : ℚ) / 2 ^ 200 ≤ 1 / 2 ^ 20 := by norm_num
    have h6 : (1 : ℚ) / 2 ^ 20 < 1 / 2 * (1 / 2 ^ 12) := by norm_num
    linarith
  have b2 := RoundsTo.abs_le (Dbl.rounded.mul c (1 / (n : Dbl)))
  have c4 : |c.val * (1 / (n : Dbl)).val| ≤ 1 * 5 := by
    rw [abs_mul]
    exact mul_le_mul c3 (by linarith) (abs_nonneg _) zero_le_one
  have f2 : F64.fin c * .fin (1 / (n : Dbl)) = .fin (c * (1 / (n : Dbl))) := F64.fin_mul (big _ (by linarith))
  have b3 := RoundsTo.abs_le (Dbl.rounded.div (c * (1 / (n : Dbl))) 1)
  rw [Dbl.rounded.one, div_one] at b3
  have f3 : F64.fin (c * (1 / (n : Dbl))) / 1 = .fin (c * (1 / (n : Dbl)) / 1) :=
    F64.fin_div (by rw [Dbl.rounded.one]; exact one_ne_zero) (big _ (by linarith))
  have f4 : driverDt (F64.fin c) n = .fin (driverDt c n) := by
    unfold driverDt
    rw [f0, f1, f2, f3]
    rw [show (HasMax.dblMax : F64) = .fin HasMax.dblMax from rfl, clip_fin, clip_fin, clip_fin]
  have c5 : |(driverDt c n).val| ≤ 23 := by rw [edt']; linarith
  have hi : |((1 : Int) : Dbl).val| ≤ 1 := by decide +kernel
  have f5 : ((1 : Int) : F64) = .fin ((1 : Int) : Dbl) := F64.fin_int (big _ (by linarith))
  have b4 := RoundsTo.abs_le (Dbl.rounded.mul ((1 : Int) : Dbl) (driverDt c n))
  have c6 : |((1 : Int) : Dbl).val * (driverDt c n).val| ≤ 1 * 23 := by
    rw [abs_mul]
    exact mul_le_mul hi c5 (abs_nonneg _) zero_le_one
  have f6 : F64.fin ((1 : Int) : Dbl) * .fin (driverDt c n) = .fin (((1 : Int) : Dbl) * driverDt c n) :=
    F64.fin_mul (big _ (by linarith))
  have b5 := RoundsTo.abs_le (Dbl.rounded.mul (((1 : Int) : Dbl) * driverDt c n) 1)
  rw [Dbl.rounded.one, mul_one] at b5
  have f7 : F64.fin (((1 : Int) : Dbl) * driverDt c n) * 1 = .fin (((1 : Int) : Dbl) * driverDt c n * 1) :=
    F64.fin_mul (big _ (by linarith))
  have w1 : |(driverWeight c n).val| ≤ 1 / 10 * (1 + 13 * ρ₀) := by
    have := abs_add_le ((driverWeight c n).val - 1 / 10) (1 / 10)
    rw [sub_add_cancel, abs_of_pos (by norm_num : (0 : ℚ) < 1 / 10)] at this
    linarith
  have w2 : |(1 - driverWeight c n - driverWeight c n - driverWeight c n).val| ≤ 7 / 10 * (1 + 13 * ρ₀) := by
    have := abs_add_le ((1 - driverWeight c n - driverWeight c n - driverWeight c n).val - 7 / 10) (7 / 10)
    rw [sub_add_cancel, abs_of_pos (by norm_num : (0 : ℚ) < 7 / 10)] at this
    linarith
  have hρ : (1 : ℚ) / 10 * (1 + 13 * ρ₀) ≤ 1 := by norm_num
  have f8 : driverWeight (F64.fin c) n = .fin (driverWeight c n) := by
    have : F64.fin (((1 : Int) : Dbl) * driverDt c n * 1) / .fin (1 / (n : Dbl)) = .fin (driverWeight c n) :=
      F64.fin_div hne (big _ (by show |(driverWeight c n).val| ≤ _; linarith))
    unfold driverWeight
    rw [f4, f0, f1, f5, f6, f7, this]
    rfl
  refine ⟨f8, ?_, w1, w2⟩
  generalize driverWeight c n = a at w1 w2
  have g1 : |(1 - a).val| ≤ 10 := by
    have h := RoundsTo.abs_le (Dbl.rounded.sub 1 a)
    have := abs_sub (1 : Dbl).val a.val
    rw [Dbl.rounded.one, abs_one] at this
    rw [Dbl.rounded.one] at h
    linarith
  have g2 : |(1 - a - a).val| ≤ 30 := by
    have h := RoundsTo.abs_le (Dbl.rounded.sub (1 - a) a)
    have := abs_sub (1 - a).val a.val
    linarith
  rw [show (1 : F64) - .fin a = .fin (1 - a) from F64.fin_sub (big _ (by linarith)),
    F64.fin_sub (big _ (by linarith)), F64.fin_sub (big _ (by
      linarith [(by norm_num : (7 : ℚ) / 10 * (1 + 13 * ρ₀) ≤ 1)]))]

/-- The bound on the fields of `upwindMpi` in terms of its rounded weights. -/
theorem mpi_bound {q : ℚ} (hq0 : 0 ≤ q) (hq : q ≤ stencilGrowth 4 ρ₀ (13 * ρ₀)) {k : Nat} (hk : k ≤ 2 ^ 31) :
    iterBound q (stencilUnderflow 4 ρ₀ η₀) k 1 ≤ 2 := by
  have hz := stencilUnderflow_nonneg (r := ρ₀) (η := η₀) (by positivity) (by positivity) 4
  have hmono : ∀ k, 0 ≤ iterBound q (stencilUnderflow 4 ρ₀ η₀) k 1 ∧
      iterBound q (stencilUnderflow 4 ρ₀ η₀) k 1 ≤ mpiBound ρ₀ η₀ 1 k := by
    intro k
    unfold mpiBound
    rw [mul_one]
    induction k with
    | zero => exact ⟨zero_le_one, le_refl _⟩
    | succ k ih =>
      rw [iterBound_succ, iterBound_succ]
      exact ⟨add_nonneg (mul_nonneg hq0 ih.1) hz,
        add_le_add (mul_le_mul hq ih.2 ih.1 (hq0.trans hq)) (le_refl _)⟩
  obtain ⟨h0, h1⟩ := hmono k
  refine h1.trans ?_
  have h2 := mpiBound_double (η := η₀) (m := 1) (by positivity) zero_le_one (by
    rw [mul_one]; exact (tiny_le 1075 (by norm_num)).trans (by norm_num)) hk
  have hkq : (k : ℚ) ≤ 2 ^ 31 := by exact_mod_cast hk
  have h3 : (k : ℚ) * (19 / 2 ^ 53) ≤ 1 / 2 := (mul_le_mul_of_nonneg_right hkq (by norm_num)).trans (by norm_num)
  have h4 := mul_le_mul_of_nonneg_left h3 (h0.trans h1)
  linarith

/-- C69: upwindMpi. For the processes, power of two of cells per axis and numbers of steps of C68 the IEEE fields and check
sums are those that C68 is about. -/
theorem C69_upwindMpi (sz N : Nat) (hr : InRange sz [N, N, N]) (hN : N ∣ 2 ^ 64)
    (hex : ∃ d, ValidDecomp sz [N, N, N] d) (k : Nat) (hk : k < 2 ^ 31) :
    ∃ w w' v, UpwindMpi.run (⟨rnd (1 / 10)⟩ : Dbl) sz N k = .ok w ∧
      UpwindMpi.run (F64.fin ⟨rnd (1 / 10)⟩) sz N k = .ok w' ∧
      Partition w' sz [N, N, N] ∧ InputIs w v ∧ InputIs w' (fun g => .fin (v g)) ∧
      ∃ w1 w1', w.applyFilter = .ok w1 ∧ w'.applyFilter = .ok w1' ∧
        (∀ rs', (∃ w2', w1'.CheckSum true rs' w2') ↔ ∃ rs w2, w1.CheckSum true rs w2 ∧ rs' = rs.map .fin) ∧
        ∀ rs w2 rs' w2', w1.CheckSum true rs w2 → w1'.CheckSum true rs' w2' →
          ∀ qs', (∃ w3', w2'.CheckSum false qs' w3') ↔ ∃ qs w3, w2.CheckSum false qs w3 ∧ qs' = qs.map .fin := by
  have hN0 : 0 < N := hr.pos N (by simp)
  have hcells : N * (N * N) ≤ 2 ^ 32 := by
    have := hr.cells
    simpa using this
  have hN11 : N ≤ 2 ^ 11 := by
    by_contra hlt
    have h1 : 2 ^ 11 ≤ N := by omega
    have h2 : (2 ^ 11) * (2 ^ 11 * 2 ^ 11) ≤ N * (N * N) := Nat.mul_le_mul h1 (Nat.mul_le_mul h1 h1)
    omega
  obtain ⟨f1, f2, b1, b2⟩ := driverWeight_fin hN0 hN11
  obtain ⟨c, hb, hf, hcn, hcd, _, _, hst, haxis, w, w0, es, _, e0, _, hall⟩ :=
    mpi_runs_build (R := Dbl) (by decide +kernel) ⟨rnd (1 / 10)⟩ sz N hr hN hex
  obtain ⟨c', hb', hf', hcn', hcd', _, _, hst', haxis', w', w0', es', _, e0', _, hall'⟩ :=
    mpi_runs_build (R := F64) (by decide +kernel) (F64.fin ⟨rnd (1 / 10)⟩) sz N hr hN hex
  have hd : c'.d = c.d := (same_decomp hr hb hb').symm
  have hstF : c'.st = finStencil c.st := by
    rw [hst, hst', f1, f2]
    rfl
  have hlen : c.st.length = 4 := by rw [hst]; rfl
  have hq : stencilGrowth 4 ρ₀ 0 * weightSum (stencilVal Dbl.val c.st) ≤ stencilGrowth 4 ρ₀ (13 * ρ₀) := by
    have hws : weightSum (stencilVal Dbl.val c.st) ≤ 1 + 13 * ρ₀ := by
      rw [hst]
      unfold weightSum stencilVal
      simp only [List.map_cons, List.map_nil, List.sum_cons, List.sum_nil]
      linarith
    have e : stencilGrowth 4 ρ₀ (13 * ρ₀) = stencilGrowth 4 ρ₀ 0 * (1 + 13 * ρ₀) := by
      unfold stencilGrowth
      ring
    rw [e]
    exact mul_le_mul_of_nonneg_left hws (zero_le_one.trans (stencilGrowth_ge (by positivity) (le_refl 0) _))
  have hq0 : 0 ≤ stencilGrowth 4 ρ₀ 0 * weightSum (stencilVal Dbl.val c.st) :=
    mul_nonneg (zero_le_one.trans (stencilGrowth_ge (by positivity) (le_refl 0) _)) (weightSum_nonneg _)
  have hic : ∀ g, UpwindMpi.initialCondition (R := F64) g = .fin (UpwindMpi.initialCondition g) := by
    intro g
    unfold UpwindMpi.initialCondition
    split <;> rfl
  have hic1 : ∀ g, |(UpwindMpi.initialCondition (R := Dbl) g).val| ≤ 1 := by
    intro g
    unfold UpwindMpi.initialCondition
    split <;> decide +kernel
  have hfin : ∀ k ≤ 2 ^ 31, ∀ g, InGrid c.dims g → stencilIter c'.dims c'.st UpwindMpi.initialCondition k g =
      .fin (stencilIter c.dims c.st UpwindMpi.initialCondition k g) := by
    intro k hk
    rw [stencilIter_sh, stencilIter_sh, hstF, hcd', hcd]
    exact shStep_fin c.st (fun p hp g hg => shiftMod_inGrid hg (haxis p hp).1) _ _ (fun g _ => hic g) zero_le_one
      (fun g _ => hic1 g) k fun i hi => by
        rw [hlen]
        exact (mpi_bound hq0 hq (hi.trans hk)).trans (by norm_num)
  have hbd : ∀ k ≤ 2 ^ 31, ∀ g, InGrid c.dims g →
      |(stencilIter c.dims c.st UpwindMpi.initialCondition k g).val| ≤ 2 ^ 900 := by
    intro k hk g hg
    rw [hcd] at hg ⊢
    have h := (stencil_error (sh := shiftMod [N, N, N]) Dbl.rounded (le_refl 0) (maxNorm [N, N, N])
      (stencilNear_self Dbl.val c.st)
      (fun p hp u b h => maxNorm_shift (by
        obtain ⟨q, hq, rfl⟩ := List.mem_map.1 hp
        exact (haxis q hq).1) u b h) UpwindMpi.initialCondition (fun g _ => hic1 g) k).1
    rw [mul_one, hlen] at h
    rw [stencilIter_sh]
    exact (h g hg).trans ((mpi_bound hq0 hq hk).trans (by norm_num))
  obtain ⟨wk, ek, hval, hwk⟩ := hall k
  obtain ⟨wk', ek', hval', hwk'⟩ := hall' k
  have hg := hf.toGood
  have hg' := hf'.toGood
  have hL : c.L.prod ≤ 2 ^ 31 := hg.local_le hcn hcd hr
  have hnn : c'.nprocs = c.nprocs := by rw [hcn, hcn']
  have hpp : c.nprocs ≤ 2 ^ 30 := by rw [hcn]; exact hr.procs
  have hdd : c'.dims = c.dims := by rw [hcd, hcd']
  obtain ⟨w1, a1, h1⟩ := world_apply hf hwk
  obtain ⟨w1', a1', h1'⟩ := world_apply hf' hwk'
  refine ⟨wk, wk', _, ?_, ?_, ?_, input_of hg hwk (fun x f h => ⟨h.shape, h.data⟩), ?_, w1, w1', a1, a1', fun rs' => ?_, ?_⟩
  · unfold UpwindMpi.run
    rw [es, M.ok_bind, hval, e0, M.ok_bind, szOfInt_ofNat (by unfold W; omega), ek]
  · unfold UpwindMpi.run
    rw [es', M.ok_bind, hval', e0', M.ok_bind, szOfInt_ofNat (by unfold W; omega), ek']
  · have := partition_of hg' hwk' (fun x f h => h.shape)
    rw [hcn', hcd'] at this
    exact this
  · have := input_of hg' hwk' (fun x f h => ⟨h.shape, h.data⟩)
    intro f hfm g hgb
    rw [this f hfm g hgb]
    obtain ⟨x, hx, _, hs⟩ := hwk'.mem hg' hfm
    rw [hs.shape.lo, hs.shape.hi] at hgb
    have := hg'.grid hx hgb
    rw [hdd] at this
    exact congrArg some (hfin k hk.le g this)
  · refine check_sum_fin hg hg' hnn hpp hL
      ⟨h1.1, fun x f hx hf => (h1.2 x f hx hf).1.shape⟩ ⟨h1'.1, fun x f hx hf => (h1'.2 x f hx hf).1.shape⟩ true ?_ ?_ rs'
    · exact data_fin hg hd hdd (hfin k hk.le) h1 h1' (fun f => f.inData) (fun f => f.inData) (fun x f h => h.1.data)
        fun x f h => h.1.data
    · exact data_le hg (hbd k hk.le) h1 (fun f => f.inData) fun x f h => h.1.data
  · intro rs w2 rs' w2' hs hs' qs'
    obtain ⟨v2, g2, h2⟩ := localSum_call hg (Q := fun o x => o = boxData (c.lo x) (c.hi x) _) h1 true
    rw [checkSum_world hs] at g2
    obtain rfl := Except.ok.inj g2
    obtain ⟨v2', g2', h2'⟩ := localSum_call hg' (Q := fun o x => o = boxData (c'.lo x) (c'.hi x) _) h1' true
    rw [checkSum_world hs'] at g2'
    obtain rfl := Except.ok.inj g2'
    refine check_sum_fin hg hg' hnn hpp hL
      ⟨h2.1, fun x f hx hf => (h2.2 x f hx hf).1.shape⟩ ⟨h2'.1, fun x f hx hf => (h2'.2 x f hx hf).1.shape⟩ false ?_ ?_ qs'
    · exact data_fin hg hd hdd (hfin (k + 1) (by omega)) h2 h2' (fun f => f.outData) (fun f => f.outData) (fun x f h => h.2)
        fun x f h => h.2
    · exact data_le hg (hbd (k + 1) (by omega)) h2 (fun f => f.outData) fun x f h => h.2

/-- 8 cells per axis on 16 processes; with 2 cells per axis on 2 processes the IEEE values after two steps. -/
example : InRange 16 [8, 8, 8] ∧ 8 ∣ 2 ^ 64 ∧ ValidDecomp 16 [8, 8, 8] [2, 2, 4] ∧
    (UpwindMpi.run (F64.fin ⟨rnd (1 / 10)⟩) 2 2 2 >>= fun w => pure (w.map fun f => f.inData)) =
      .ok [[.fin ⟨4683743612465317 / 2 ^ 53⟩, .fin ⟨1261007895663739 / 2 ^ 53⟩, .fin ⟨1261007895663739 / 2 ^ 53⟩,
        .fin ⟨1441151880758559 / 2 ^ 56⟩],
        [.fin ⟨1261007895663739 / 2 ^ 53⟩, .fin ⟨1441151880758559 / 2 ^ 56⟩, .fin ⟨1441151880758559 / 2 ^ 56⟩, .fin ⟨0⟩]] := by
  refine ⟨⟨by decide, by decide, by decide, by decide, by decide, by decide, by decide, by decide⟩, by decide,
    ⟨.cons (by decide) (.cons (by decide) (.cons (by decide) .nil)), rfl⟩, by decide +kernel⟩

private def mixed : StdMap (List Int) Dbl := [([-1], ⟨3⟩), ([0], ⟨-1⟩), ([1], ⟨1 / 2⟩)]

/-- 20 applications of a stencil with weights of both signs on 8 cells and two processes, to a field bounded by 8. -/
example : InRange 2 [8] ∧ ValidDecomp 2 [8] [2] ∧ (∀ kv ∈ mixed, AxisOffset 1 kv.1 ∧ WrapExact [8] kv.1) ∧
    ∀ i, i ≤ 20 → iterBound (stencilGrowth mixed.length (1 / 2 ^ 53) 0 * weightSum (stencilVal Dbl.val mixed))
      (stencilUnderflow mixed.length (1 / 2 ^ 53) (1 / 2 ^ 1075)) i 8 ≤ 2 ^ 900 := by
  refine ⟨⟨by decide, by decide, by decide, by decide, by decide, by decide, by decide, by decide⟩,
    ⟨.cons (by decide) .nil, rfl⟩, ?_, ?_⟩
  · intro kv hkv
    have h : ∀ kv ∈ mixed, kv.1.length = 1 ∧ ∀ o ∈ kv.1, o = -1 ∨ o = 0 ∨ o = 1 := by decide +kernel
    obtain ⟨h1, h2⟩ := h kv hkv
    match kv.1, h1, h2 with
    | [o], _, h2 =>
      refine ⟨⟨rfl, h2, 0, fun i hi => ?_⟩, fun i hi => ?_⟩
      · match i, hi with
        | i + 1, _ => simp
      · match i, hi with
        | 0, _ => decide
        | i + 1, h => simp at h
  · decide +kernel

/-- C69: the bound is needed: two applications of the weight 2^600 to the field 1 give an infinite value. -/
theorem C69_filter_overflow_fails :
    ¬ ∀ (w : World F64), (World.new 2 [2] [] [] [([0], F64.fin ⟨2 ^ 600⟩)] >>= fun w =>
      w.setInDataByIndices (fun _ => 1) >>= fun w => w.iterate 2) = .ok w →
      ∀ f ∈ w, ∀ x ∈ f.inData, ∃ y, x = F64.fin y := by
  intro h
  have e : ((World.new 2 [2] [] [] [([0], F64.fin ⟨2 ^ 600⟩)] >>= fun w =>
      w.setInDataByIndices (fun _ => 1) >>= fun w => w.iterate 2) >>= fun w => pure (w.map fun f => f.inData)) =
      .ok [[F64.inf false], [F64.inf false]] := by decide +kernel
  cases hw : (World.new 2 [2] [] [] [([0], F64.fin ⟨2 ^ 600⟩)] >>= fun w =>
      w.setInDataByIndices (fun _ => 1) >>= fun w => w.iterate 2) with
  | error u => rw [hw] at e; exact absurd e (by intro h; cases h)
  | ok w =>
    rw [hw] at e
    have e2 : (w.map fun f => f.inData) = [[F64.inf false], [F64.inf false]] := Except.ok.inj e
    match w, e2 with
    | f :: _, e2 =>
      have e3 : f.inData = [F64.inf false] := (List.cons.inj e2).1
      obtain ⟨y, hy⟩ := h _ hw f List.mem_cons_self (F64.inf false) (by rw [e3]; exact List.mem_cons_self)
      cases hy

end Fidi
