import Verif.Lemmas.LapDouble

/-
C86: laplacian with IEEE numbers. The sine and pi are those of libm, about which only their size is assumed.
-/
set_option linter.unusedSectionVars false

namespace Fidi
open Spec CmdLineArgParser

variable [DoubleText F64] [HasSin F64]

/-- C86: laplacian with IEEE numbers, numbers printed as C++ does. For every sine that maps finite numbers to numbers of size
at most 1 and every finite pi of size at most 4, every command line with known options only and without help, every number `n`
of axes, every power of two `N` of cells along each of them, up to 2^31 in all, and every number of processes for which the
grid can be decomposed: the initial field `u` is finite and at most `(1 + 2^-53)^(2n)` in size; the final field `v` is
finite and within `(4n)^10 (22n + 21) / 2^52` of ten applications of the discrete Laplacian to `u`; that is the field in the
file; the program ends, and however it ends all ranks have status 0 and the check sums printed are finite and, whatever the
order in which MPI adds, within `(4n)^10 N^n (cells per process + processes + 22n + 21) / 2^52` of 0, the exact sum. -/
theorem C86_laplacian_double (htext : ∀ x : F64, DoubleText.showDouble x = x.text)
    (hsin : ∀ x : Dbl, ∃ y : Dbl, HasSin.sin (F64.fin x) = F64.fin y ∧ |y.val| ≤ 1)
    (hpi : ∃ p : Dbl, (HasSin.pi : F64) = .fin p ∧ |p.val| ≤ 4) (times : Str) (sz : Nat) (exec : Str) (args : List Str)
    (h : AllKnown laplacianNames args) (N n : Nat) (h1 : IntValue Reads args "-numCells".toList 8000 N)
    (h2 : IntValue Reads args "-numDims".toList 2 n) (hh : flagValue args "-h".toList = false)
    (hr : InRange sz (List.replicate n N)) (hcells : N ^ n ≤ 2 ^ 31) (hex : ∃ d, ValidDecomp sz (List.replicate n N) d)
    (hN : N ∣ 2 ^ 64) :
    ∃ u v : List Nat → Dbl,
      (∀ g, InGrid (List.replicate n N) g →
        lapInit HasSin.sin HasSin.pi N g = F64.fin (u g) ∧ |(u g).val| ≤ (1 + 1 / 2 ^ 53) ^ (2 * n) ∧
        |(v g).val - (laplace (List.replicate n N))^[10] (fun g => (u g).val) g| ≤ (4 * n) ^ 10 * ((22 * n + 21) / 2 ^ 52)) ∧
      ∃ files, (flagValue args "-vtk".toList = false → files = []) ∧
        (flagValue args "-vtk".toList = true → 3 < n → files = []) ∧
        (flagValue args "-vtk".toList = true → n ≤ 3 → ∃ text, files = [("laplacian.vtk".toList, text)] ∧
          StructFile F64.text (List.replicate n N) (List.replicate n 0) (List.replicate n 1) (fun g => F64.fin (v g)) text) ∧
        (∃ x, Laplacian.Main (R := F64) times sz (exec :: args) x) ∧
        ∀ x, Laplacian.Main (R := F64) times sz (exec :: args) x → ∃ a b : Dbl,
          |a.val| ≤ (4 * n) ^ 10 * N ^ n * (((N ^ n / sz : Nat) + sz + 22 * n + 21) / 2 ^ 52) ∧
          |b.val| ≤ (4 * n) ^ 10 * N ^ n * (((N ^ n / sz : Nat) + sz + 22 * n + 21) / 2 ^ 52) ∧
          x = .ok ⟨(List.range sz).map fun rk => if rk = 0 then {
            out := fileNote "laplacian.vtk".toList (flagValue args "-vtk".toList) ++
              "Laplace times min/max/avg: ".toList ++ times ++ " [seconds]\n".toList ++ "Check sums: input = ".toList ++
              (F64.fin a).text ++ " output = ".toList ++ (F64.fin b).text ++ "\n".toList
            err := [], files := files, status := 0 } else { out := [], err := [], files := [], status := 0 }⟩ := by
  have hn1 : 1 ≤ n := Nat.pos_of_ne_zero fun e => hr.ne (by rw [e]; rfl)
  have hn : n < 32 := by have := hr.axes; rwa [List.length_replicate] at this
  have hmem : N ∈ List.replicate n N := List.mem_replicate.2 ⟨by omega, rfl⟩
  have hN31 : N < 2 ^ 31 := hr.ext N hmem
  have hN0 : 0 < N := hr.pos N hmem
  have hinit : ∀ g, ∃ y : Dbl, InGrid (List.replicate n N) g →
      lapInit HasSin.sin HasSin.pi N g = F64.fin y ∧ |y.val| ≤ (1 + 1 / 2 ^ 53) ^ (2 * n) := by
    intro g
    by_cases hg : InGrid (List.replicate n N) g
    · obtain ⟨y, e, hy⟩ := lapInit_fin hsin hpi hN31 hn hg
      exact ⟨y, fun _ => ⟨e, hy⟩⟩
    · exact ⟨0, fun hg' => absurd hg' hg⟩
  choose u hu using hinit
  obtain ⟨v, hv, hsum⟩ := lap_double hn1 hn hN0 hN (fun g hg => (hu g hg).1) (fun g hg => (hu g hg).2)
  obtain ⟨d, hd, hok, -⟩ := C56_laplacian_every_size (R := F64) times sz exec args h N n h1 h2 hh hr hcells hex (words_of htext).1
  obtain ⟨files, f1, f2, f3, hmain⟩ := hok (.inl hN)
  have hshow : (DoubleText.showDouble : F64 → Str) = F64.text := funext htext
  rw [hshow] at f3 hmain
  refine ⟨u, v, fun g hg => ⟨(hu g hg).1, (hu g hg).2, (hv g hg).2⟩, files, f1, f2, ?_, ?_, ?_⟩
  · intro a b
    obtain ⟨text, e, hf⟩ := f3 a b
    exact ⟨text, e, structFile_congr hf fun g hg => (hv g hg).1⟩
  · obtain ⟨s, hs⟩ : ∃ s, GridSum (List.replicate n N) d (stencilIter64 (List.replicate n N) (lapStencil n)
        (lapInit (R := F64) HasSin.sin HasSin.pi N) 10) s := by
      refine anySum_exists ?_
      have hp0 : ∀ k ∈ d, 0 < k := by
        intro k hk
        refine Nat.pos_of_ne_zero fun e => ?_
        have h0 : d.prod = 0 := List.prod_eq_zero (e ▸ hk)
        have := hr.procs1
        rw [hd.2] at h0
        omega
      intro e
      have h0 := cellAt_inGrid hp0 0
      rw [← inBox_zero, ← mem_cellList (by simp), List.map_eq_nil_iff.1 e] at h0
      cases h0
    exact ⟨_, (hmain _).2 ⟨s, s, hs, hs, rfl⟩⟩
  · intro x hx
    obtain ⟨a, b, ha, hb, e⟩ := (hmain x).1 hx
    obtain ⟨a', rfl, ha'⟩ := hsum d sz hd hcells a ha
    obtain ⟨b', rfl, hb'⟩ := hsum d sz hd hcells b hb
    exact ⟨a', b', ha', hb', e⟩

/-- A command line for 8 x 8 cells. -/
def lapEight : List Str := ["-numDims".toList, "2".toList, "-numCells".toList, "8".toList]

/-- 8 x 8 cells and 4 processes, with any sine and pi of the right size: the check sums are below 1/500. -/
example (htext : ∀ x : F64, DoubleText.showDouble x = x.text)
    (hsin : ∀ x : Dbl, ∃ y : Dbl, HasSin.sin (F64.fin x) = F64.fin y ∧ |y.val| ≤ 1)
    (hpi : ∃ p : Dbl, (HasSin.pi : F64) = .fin p ∧ |p.val| ≤ 4) (times : Str) :
    (∃ x, Laplacian.Main (R := F64) times 4 ("laplacian".toList :: lapEight) x) ∧
    ∀ x, Laplacian.Main (R := F64) times 4 ("laplacian".toList :: lapEight) x → ∃ a b : Dbl,
      |a.val| ≤ 1 / 500 ∧ |b.val| ≤ 1 / 500 ∧ ∃ e : MpiExit, x = .ok e ∧ e.ranks.length = 4 ∧
        (e.ranks.map fun r => r.out).head? = some ("Laplace times min/max/avg: ".toList ++ times ++ " [seconds]\n".toList ++
          "Check sums: input = ".toList ++ (F64.fin a).text ++ " output = ".toList ++ (F64.fin b).text ++ "\n".toList) := by
  have hk : AllKnown laplacianNames lapEight := by
    intro a ha h
    simp only [lapEight, List.mem_cons, List.not_mem_nil, or_false] at ha
    rcases ha with rfl | rfl | rfl | rfl
    · decide
    · obtain ⟨_, _, h, _⟩ := h; simp at h
    · decide
    · obtain ⟨_, _, h, _⟩ := h; simp at h
  have h1 : IntValue Reads lapEight "-numCells".toList 8000 (8 : Nat) :=
    intValue_only 2 (v := "8".toList) (by decide) (by decide) rfl (by decide)
  have h2 : IntValue Reads lapEight "-numDims".toList 2 (2 : Nat) :=
    intValue_only 0 (v := "2".toList) (by decide) (by decide) rfl (by decide)
  obtain ⟨_, _, _, _, _, _, _, h3, h4⟩ := C86_laplacian_double htext hsin hpi times 4 "laplacian".toList lapEight hk 8 2 h1 h2
    (by decide) ⟨by decide, by decide, by decide, by decide, by decide, by decide, by decide, by decide⟩ (by decide)
    ⟨[2, 2], .cons (by decide) (.cons (by decide) .nil), by decide⟩ (by decide)
  refine ⟨h3, fun x hx => ?_⟩
  obtain ⟨a, b, ha, hb, e⟩ := h4 x hx
  exact ⟨a, b, ha.trans (by norm_num), hb.trans (by norm_num), _, e, rfl, rfl⟩

omit [DoubleText F64] [HasSin F64] in
/-- A sine and a pi of the right size: the sign of the argument, and 355/113 rounded. -/
example : ∃ (_ : HasSin F64), (∀ x : Dbl, ∃ y : Dbl, HasSin.sin (F64.fin x) = F64.fin y ∧ |y.val| ≤ 1) ∧
    ∃ p : Dbl, (HasSin.pi : F64) = .fin p ∧ |p.val| ≤ 4 := by
  refine ⟨⟨fun x => if x < 0 then .fin ⟨-1⟩ else .fin 1, .fin ⟨rnd (355 / 113)⟩⟩, fun x => ?_, _, rfl, by decide +kernel⟩
  show ∃ y, (if F64.fin x < 0 then F64.fin ⟨-1⟩ else F64.fin 1) = F64.fin y ∧ _
  by_cases h : F64.fin x < 0
  · exact ⟨_, if_pos h, by norm_num⟩
  · exact ⟨_, if_neg h, by rw [Dbl.rounded.one]; simp⟩

end Fidi
