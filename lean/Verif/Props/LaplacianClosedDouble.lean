import Verif.Lemmas.LapClosedDouble
import Verif.Props.LaplacianDouble

/-
C87: the file of laplacian, with IEEE numbers, and the closed form of the field.
-/
set_option linter.unusedSectionVars false

namespace Fidi
open Spec CmdLineArgParser

variable [DoubleText F64] [HasSin F64]

/-- C87: laplacian with IEEE numbers, numbers printed as C++ does, and option -vtk. For every sine within `2^-52` of the real
one and of size at most 1, every pi within `2^-52` of the real one, every command line with known options only and without
help, 1, 2 or 3 axes, every power of two `N` of cells along each of them, up to 2^31 in all, and every number of processes for
which the grid can be decomposed: the program ends, and however it ends all ranks have status 0 and the only file is
laplacian.vtk of rank 0, which holds finite numbers within `(4n)^10 (63n + 21) / 2^52` of the product of the sines at the
centre of the cell times `(2n (cos(2 pi / N) - 1))^10`. -/
theorem C87_laplacian_file_closed_form (htext : ∀ x : F64, DoubleText.showDouble x = x.text)
    (hsin : ∀ x : Dbl, ∃ y : Dbl, HasSin.sin (F64.fin x) = F64.fin y ∧ |y.val| ≤ 1 ∧
      |(y.val : ℝ) - Real.sin (x.val : ℝ)| ≤ 1 / 2 ^ 52)
    (hpi : ∃ p : Dbl, (HasSin.pi : F64) = .fin p ∧ |(p.val : ℝ) - Real.pi| ≤ 1 / 2 ^ 52) (times : Str) (sz : Nat) (exec : Str)
    (args : List Str) (h : AllKnown laplacianNames args) (N n : Nat) (h1 : IntValue Reads args "-numCells".toList 8000 N)
    (h2 : IntValue Reads args "-numDims".toList 2 n) (hh : flagValue args "-h".toList = false)
    (hvtk : flagValue args "-vtk".toList = true) (hn3 : n ≤ 3)
    (hr : InRange sz (List.replicate n N)) (hcells : N ^ n ≤ 2 ^ 31) (hex : ∃ d, ValidDecomp sz (List.replicate n N) d)
    (hN : N ∣ 2 ^ 64) :
    ∃ (v : List Nat → Dbl) (text : Str),
      StructFile F64.text (List.replicate n N) (List.replicate n 0) (List.replicate n 1) (fun g => F64.fin (v g)) text ∧
      (∀ g, InGrid (List.replicate n N) g →
        |((v g).val : ℝ) - (2 * n * (Real.cos (2 * Real.pi / N) - 1)) ^ 10 *
          (g.map fun i : Nat => Real.sin (2 * Real.pi * (((i : ℝ) + 1 / 2) / (N : ℝ)))).prod| ≤
            (4 * (n : ℝ)) ^ 10 * ((63 * n + 21) / 2 ^ 52)) ∧
      (∃ x, Laplacian.Main (R := F64) times sz (exec :: args) x) ∧
      ∀ x, Laplacian.Main (R := F64) times sz (exec :: args) x → ∃ e : MpiExit, x = .ok e ∧ e.ranks.length = sz ∧
        (∀ r ∈ e.ranks, r.status = 0) ∧
        e.ranks.map (fun r => r.files) =
          (List.range sz).map fun rk => if rk = 0 then [("laplacian.vtk".toList, text)] else [] := by
  have hn : n < 32 := by omega
  have hn1 : 1 ≤ n := Nat.pos_of_ne_zero fun e => hr.ne (by rw [e]; rfl)
  have hmem : N ∈ List.replicate n N := List.mem_replicate.2 ⟨by omega, rfl⟩
  have hN31 : N < 2 ^ 31 := hr.ext N hmem
  have hN0 : 0 < N := hr.pos N hmem
  have hpi4 : ∃ p : Dbl, (HasSin.pi : F64) = .fin p ∧ |p.val| ≤ 4 := by
    obtain ⟨p, e, hp⟩ := hpi
    refine ⟨p, e, ?_⟩
    have hb := abs_le.1 hp
    have h3 := Real.pi_gt_three
    have h4 := Real.pi_lt_d2
    have : |(p.val : ℝ)| ≤ 4 := by
      rw [abs_le]
      norm_num at hb h4
      constructor <;> linarith
    exact_mod_cast this
  obtain ⟨u, v, huv, files, -, -, f3, hex', hall⟩ := C86_laplacian_double htext
    (fun x => by obtain ⟨y, a, b, _⟩ := hsin x; exact ⟨y, a, b⟩) hpi4 times sz exec args h N n h1 h2 hh hr hcells hex hN
  obtain ⟨text, rfl, hfile⟩ := f3 hvtk hn3
  refine ⟨v, text, hfile, ?_, hex', ?_⟩
  · intro g hg
    have hu : ∀ g, InGrid (List.replicate n N) g → |((u g).val : ℝ) - (g.map (wave N)).prod| ≤ n * (41 / 2 ^ 52) := by
      intro g hg
      obtain ⟨y, e, hy⟩ := lapInit_near (fun x => by obtain ⟨y, a, _, c⟩ := hsin x; exact ⟨y, a, c⟩) hpi hN31 hn hg
      rw [(huv g hg).1] at e
      cases e
      exact hy
    have a1 := laplace_iter_near hu 10 g hg
    rw [List.length_replicate, laplace_waves_iter hN0 10 g hg] at a1
    have a2 := (Rat.cast_le (K := ℝ)).2 (huv g hg).2.2
    push_cast at a2
    rw [laplace_iter_cast] at a2
    have a3 := abs_sub_le ((v g).val : ℝ) ((laplace (List.replicate n N))^[10] (fun g => ((u g).val : ℝ)) g)
      ((n * (2 * (Real.cos (2 * Real.pi / N) - 1))) ^ 10 * (g.map (wave N)).prod)
    have e : (n : ℝ) * (2 * (Real.cos (2 * Real.pi / N) - 1)) = 2 * n * (Real.cos (2 * Real.pi / N) - 1) := by ring
    rw [e] at a1 a3
    have e2 : (4 * (n : ℝ)) ^ 10 * ((63 * n + 21) / 2 ^ 52) =
        (4 * (n : ℝ)) ^ 10 * ((22 * n + 21) / 2 ^ 52) + (4 * (n : ℝ)) ^ 10 * (n * (41 / 2 ^ 52)) := by ring
    rw [e2]
    exact a3.trans (add_le_add a2 a1)
  · intro x hx
    obtain ⟨a, b, -, -, rfl⟩ := hall x hx
    refine ⟨_, rfl, by simp, ?_, ?_⟩
    · intro r hr
      obtain ⟨k, -, rfl⟩ := List.mem_map.1 hr
      by_cases hk : k = 0 <;> simp [hk]
    · simp only [List.map_map]
      refine List.map_congr_left fun k _ => ?_
      by_cases hk : k = 0 <;> simp [hk]

/-- C87: the decimal number that stands for a cell in this file is the closed form, up to half a unit of its sixth digit and the
rounding errors of the computation. -/
theorem C87_laplacian_file_decimals (htext : ∀ x : F64, DoubleText.showDouble x = x.text)
    (hsin : ∀ x : Dbl, ∃ y : Dbl, HasSin.sin (F64.fin x) = F64.fin y ∧ |y.val| ≤ 1 ∧
      |(y.val : ℝ) - Real.sin (x.val : ℝ)| ≤ 1 / 2 ^ 52)
    (hpi : ∃ p : Dbl, (HasSin.pi : F64) = .fin p ∧ |(p.val : ℝ) - Real.pi| ≤ 1 / 2 ^ 52) (times : Str) (sz : Nat) (exec : Str)
    (args : List Str) (h : AllKnown laplacianNames args) (N n : Nat) (h1 : IntValue Reads args "-numCells".toList 8000 N)
    (h2 : IntValue Reads args "-numDims".toList 2 n) (hh : flagValue args "-h".toList = false)
    (hvtk : flagValue args "-vtk".toList = true) (hn3 : n ≤ 3)
    (hr : InRange sz (List.replicate n N)) (hcells : N ^ n ≤ 2 ^ 31) (hex : ∃ d, ValidDecomp sz (List.replicate n N) d)
    (hN : N ∣ 2 ^ 64) :
    (∃ x, Laplacian.Main (R := F64) times sz (exec :: args) x) ∧
    ∀ x, Laplacian.Main (R := F64) times sz (exec :: args) x → ∃ (e : MpiExit) (text : Str) (grid : StructGrid), x = .ok e ∧
      e.ranks.map (fun r => r.files) = ((List.range sz).map fun rk => if rk = 0 then [("laplacian.vtk".toList, text)] else []) ∧
      readStruct text = some grid ∧
      ∀ g, InGrid (List.replicate n N) g →
        ∃ q : ℚ, (grid.value (g.getD 0 0) (g.getD 1 0) (g.getD 2 0)).bind readDecimal = some q ∧
          |(q : ℝ) - (2 * n * (Real.cos (2 * Real.pi / N) - 1)) ^ 10 *
            (g.map fun i : Nat => Real.sin (2 * Real.pi * (((i : ℝ) + 1 / 2) / (N : ℝ)))).prod| ≤
            |(2 * n * (Real.cos (2 * Real.pi / N) - 1)) ^ 10 *
              (g.map fun i : Nat => Real.sin (2 * Real.pi * (((i : ℝ) + 1 / 2) / (N : ℝ)))).prod| / 200000 +
            (4 * (n : ℝ)) ^ 10 * ((64 * n + 22) / 2 ^ 52) := by
  obtain ⟨v, text, ⟨grid, hg, -, -, -, -, hval⟩, hv, hex', hall⟩ := C87_laplacian_file_closed_form htext hsin hpi times sz exec args h
    N n h1 h2 hh hvtk hn3 hr hcells hex hN
  refine ⟨hex', fun x hx => ?_⟩
  obtain ⟨e, he, -, -, hfiles⟩ := hall x hx
  refine ⟨e, text, grid, he, hfiles, hg, fun g hgrid => ?_⟩
  obtain ⟨q, a1, -, -, a4⟩ := C80_six_digits (v g)
  refine ⟨q, by rw [hval g hgrid, Option.bind_some]; exact a1, ?_⟩
  have b1 := hv g hgrid
  have b2 := (Rat.cast_le (K := ℝ)).2 a4
  push_cast at b2
  generalize (2 * (n : ℝ) * (Real.cos (2 * Real.pi / N) - 1)) ^ 10 *
    (g.map fun i : Nat => Real.sin (2 * Real.pi * (((i : ℝ) + 1 / 2) / (N : ℝ)))).prod = c at b1 ⊢
  have b3 := abs_sub_le (q : ℝ) ((v g).val : ℝ) c
  have b4 := abs_sub_abs_le_abs_sub ((v g).val : ℝ) c
  have hA : (0 : ℝ) ≤ (4 * (n : ℝ)) ^ 10 := by positivity
  have hn0 : (0 : ℝ) ≤ n := Nat.cast_nonneg _
  have b5 : (4 * (n : ℝ)) ^ 10 * ((63 * n + 21) / 2 ^ 52) * (1 + 1 / 200000) ≤ (4 * (n : ℝ)) ^ 10 * ((64 * n + 22) / 2 ^ 52) := by
    rw [mul_assoc]
    refine mul_le_mul_of_nonneg_left ?_ hA
    rw [div_mul_eq_mul_div]
    exact div_le_div_of_nonneg_right (by linarith) (by positivity)
  linarith

/-- A command line for 8 x 8 cells and a file. -/
def lapEightVtk : List Str := ["-vtk".toList, "-numDims".toList, "2".toList, "-numCells".toList, "8".toList]

omit [DoubleText F64] [HasSin F64] in
theorem lapEight_known : AllKnown laplacianNames lapEightVtk := by
  intro a ha h
  simp only [lapEightVtk, List.mem_cons, List.not_mem_nil, or_false] at ha
  rcases ha with rfl | rfl | rfl | rfl | rfl
  · decide
  · decide
  · obtain ⟨_, _, h, _⟩ := h; simp at h
  · decide
  · obtain ⟨_, _, h, _⟩ := h; simp at h

omit [DoubleText F64] [HasSin F64] in
theorem lapEight_cells : IntValue Reads lapEightVtk "-numCells".toList 8000 (8 : Nat) :=
  intValue_only 3 (v := "8".toList) (by decide) (by decide) rfl (by decide)

omit [DoubleText F64] [HasSin F64] in
theorem lapEight_dims : IntValue Reads lapEightVtk "-numDims".toList 2 (2 : Nat) :=
  intValue_only 1 (v := "2".toList) (by decide) (by decide) rfl (by decide)

/-- 8 x 8 cells and 4 processes: the numbers in the file are within 1/28000 of the closed form. -/
example (htext : ∀ x : F64, DoubleText.showDouble x = x.text)
    (hsin : ∀ x : Dbl, ∃ y : Dbl, HasSin.sin (F64.fin x) = F64.fin y ∧ |y.val| ≤ 1 ∧
      |(y.val : ℝ) - Real.sin (x.val : ℝ)| ≤ 1 / 2 ^ 52)
    (hpi : ∃ p : Dbl, (HasSin.pi : F64) = .fin p ∧ |(p.val : ℝ) - Real.pi| ≤ 1 / 2 ^ 52) (times : Str) :
    ∃ (v : List Nat → Dbl) (text : Str),
      StructFile F64.text [8, 8] [0, 0] [1, 1] (fun g => F64.fin (v g)) text ∧
      (∀ g, InGrid [8, 8] g →
        |((v g).val : ℝ) - (4 * (Real.cos (Real.pi / 4) - 1)) ^ 10 *
          (g.map fun i : Nat => Real.sin (2 * Real.pi * (((i : ℝ) + 1 / 2) / 8))).prod| ≤ 1 / 28000) ∧
      ∃ e : MpiExit, Laplacian.Main (R := F64) times 4 ("laplacian".toList :: lapEightVtk) (.ok e) ∧
        e.ranks.map (fun r => r.files) = [[("laplacian.vtk".toList, text)], [], [], []] := by
  obtain ⟨v, text, hf, hv, ⟨x, hx⟩, hall⟩ := C87_laplacian_file_closed_form htext hsin hpi times 4 "laplacian".toList
    lapEightVtk lapEight_known 8 2 lapEight_cells lapEight_dims (by decide) (by decide) (by decide)
    ⟨by decide, by decide, by decide, by decide, by decide, by decide, by decide, by decide⟩ (by decide)
    ⟨[2, 2], .cons (by decide) (.cons (by decide) .nil), by decide⟩ (by decide)
  obtain ⟨e, rfl, -, -, he⟩ := hall x hx
  refine ⟨v, text, hf, fun g hg => ?_, e, hx, he⟩
  have h3 := hv g hg
  have e1 : 2 * Real.pi / ((8 : Nat) : ℝ) = Real.pi / 4 := by push_cast; ring
  have e2 : (2 : ℝ) * ((2 : Nat) : ℝ) = 4 := by norm_num
  rw [e1, e2] at h3
  push_cast at h3
  exact h3.trans (by norm_num)

/-- 8 x 8 cells and 4 processes: the number in the file for cell (1, 1) is `(4 (cos(pi / 4) - 1))^10 sin^2(3 pi / 8)` up to 1/20000 and
half a unit of its sixth digit. -/
example (htext : ∀ x : F64, DoubleText.showDouble x = x.text)
    (hsin : ∀ x : Dbl, ∃ y : Dbl, HasSin.sin (F64.fin x) = F64.fin y ∧ |y.val| ≤ 1 ∧
      |(y.val : ℝ) - Real.sin (x.val : ℝ)| ≤ 1 / 2 ^ 52)
    (hpi : ∃ p : Dbl, (HasSin.pi : F64) = .fin p ∧ |(p.val : ℝ) - Real.pi| ≤ 1 / 2 ^ 52) (times : Str) :
    ∃ (e : MpiExit) (text : Str) (grid : StructGrid) (q : ℚ),
      Laplacian.Main (R := F64) times 4 ("laplacian".toList :: lapEightVtk) (.ok e) ∧
      e.ranks.map (fun r => r.files) = [[("laplacian.vtk".toList, text)], [], [], []] ∧ readStruct text = some grid ∧
      (grid.value 1 1 0).bind readDecimal = some q ∧
      |(q : ℝ) - (4 * (Real.cos (Real.pi / 4) - 1)) ^ 10 * Real.sin (3 * Real.pi / 8) ^ 2| ≤
        (4 * (Real.cos (Real.pi / 4) - 1)) ^ 10 * Real.sin (3 * Real.pi / 8) ^ 2 / 200000 + 1 / 20000 := by
  obtain ⟨⟨x, hx⟩, hall⟩ := C87_laplacian_file_decimals htext hsin hpi times 4 "laplacian".toList
    lapEightVtk lapEight_known 8 2 lapEight_cells lapEight_dims (by decide) (by decide) (by decide)
    ⟨by decide, by decide, by decide, by decide, by decide, by decide, by decide, by decide⟩ (by decide)
    ⟨[2, 2], .cons (by decide) (.cons (by decide) .nil), by decide⟩ (by decide)
  obtain ⟨e, text, grid, rfl, hf, hg, h⟩ := hall x hx
  obtain ⟨q, hq, hb⟩ := h [1, 1] (by simp [InGrid])
  refine ⟨e, text, grid, q, hx, hf, hg, hq, ?_⟩
  have e1 : 2 * Real.pi / ((8 : Nat) : ℝ) = Real.pi / 4 := by push_cast; ring
  have e2 : (2 : ℝ) * ((2 : Nat) : ℝ) = 4 := by norm_num
  have e3 : (([1, 1] : List Nat).map fun i : Nat => Real.sin (2 * Real.pi * (((i : ℝ) + 1 / 2) / ((8 : Nat) : ℝ)))).prod =
      Real.sin (3 * Real.pi / 8) ^ 2 := by
    have : 2 * Real.pi * ((((1 : Nat) : ℝ) + 1 / 2) / ((8 : Nat) : ℝ)) = 3 * Real.pi / 8 := by push_cast; ring
    simp only [List.map_cons, List.map_nil, List.prod_cons, List.prod_nil, this]
    ring
  have e4 : |(4 * (Real.cos (Real.pi / 4) - 1)) ^ 10 * Real.sin (3 * Real.pi / 8) ^ 2| =
      (4 * (Real.cos (Real.pi / 4) - 1)) ^ 10 * Real.sin (3 * Real.pi / 8) ^ 2 :=
    abs_of_nonneg (mul_nonneg (Even.pow_nonneg (by decide) _) (sq_nonneg _))
  rw [e1, e2, e3, e4] at hb
  refine hb.trans (add_le_add (le_refl _) ?_)
  push_cast
  norm_num

omit [DoubleText F64] [HasSin F64] in
/-- Such a sine and pi exist: the real sine cut after 52 binary digits, and pi as in math.h. -/
example : ∃ (_ : HasSin F64), (∀ x : Dbl, ∃ y : Dbl, HasSin.sin (F64.fin x) = F64.fin y ∧ |y.val| ≤ 1 ∧
      |(y.val : ℝ) - Real.sin (x.val : ℝ)| ≤ 1 / 2 ^ 52) ∧
    ∃ p : Dbl, (HasSin.pi : F64) = .fin p ∧ |(p.val : ℝ) - Real.pi| ≤ 1 / 2 ^ 52 := by
  let s : Dbl → Dbl := fun x => ⟨(⌊Real.sin (x.val : ℝ) * 2 ^ 52⌋ : ℚ) / 2 ^ 52⟩
  refine ⟨⟨fun x => match x with | .fin x => .fin (s x) | y => y, .fin ⟨884279719003555 / 2 ^ 48⟩⟩,
    fun x => ⟨s x, rfl, ?_, ?_⟩, _, rfl, ?_⟩
  · have h1 : -(2 ^ 52 : Int) ≤ ⌊Real.sin (x.val : ℝ) * 2 ^ 52⌋ := by
      rw [Int.le_floor]
      push_cast
      nlinarith [Real.neg_one_le_sin (x.val : ℝ)]
    have h2 : ⌊Real.sin (x.val : ℝ) * 2 ^ 52⌋ ≤ (2 ^ 52 : Int) := by
      have h3 : (⌊Real.sin (x.val : ℝ) * 2 ^ 52⌋ : ℝ) ≤ 2 ^ 52 := (Int.floor_le _).trans (by
        nlinarith [Real.sin_le_one (x.val : ℝ)])
      exact_mod_cast h3
    have h1' : -(2 ^ 52 : ℚ) ≤ (⌊Real.sin (x.val : ℝ) * 2 ^ 52⌋ : ℚ) := by exact_mod_cast h1
    have h2' : (⌊Real.sin (x.val : ℝ) * 2 ^ 52⌋ : ℚ) ≤ 2 ^ 52 := by exact_mod_cast h2
    show |(⌊Real.sin (x.val : ℝ) * 2 ^ 52⌋ : ℚ) / 2 ^ 52| ≤ 1
    rw [abs_div, abs_of_pos (by norm_num : (0 : ℚ) < 2 ^ 52), div_le_one (by norm_num), abs_le]
    exact ⟨h1', h2'⟩
  · have h1 := Int.floor_le (Real.sin (x.val : ℝ) * 2 ^ 52)
    have h2 := Int.lt_floor_add_one (Real.sin (x.val : ℝ) * 2 ^ 52)
    show |(((⌊Real.sin (x.val : ℝ) * 2 ^ 52⌋ : ℚ) / 2 ^ 52 : ℚ) : ℝ) - _| ≤ _
    push_cast
    generalize (⌊Real.sin (x.val : ℝ) * 2 ^ 52⌋ : ℝ) = f at h1 h2
    rw [abs_le]
    norm_num at h1 h2 ⊢
    constructor <;> linarith
  · have h1 := Real.pi_gt_d20
    have h2 := Real.pi_lt_d20
    push_cast
    rw [abs_le]
    norm_num at h1 h2 ⊢
    constructor <;> linarith

end Fidi
