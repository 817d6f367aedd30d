import Verif.Spec.GridSum
import Verif.Lemmas.MainsMpi
import Verif.Lemmas.FilterPrint
import Verif.Lemmas.FilterWrap

/-
Check sums in any arithmetic.
-/
set_option linter.unusedSectionVars false

namespace Fidi
open Spec
variable {R : Type}

theorem anySum_of_tree [Add R] {xs : List R} {s : R} (h : SumTree xs s) : AnySum xs s := by
  induction h with
  | leaf x => exact .one x
  | node _ _ h1 h2 => exact .add h1 h2

theorem mpiSum_iff [Add R] {xs : List R} {s : R} : MpiSum xs s ↔ AnySum xs s := by
  constructor
  · rintro ⟨ys, hp, h⟩
    exact .perm hp (anySum_of_tree h)
  · intro h
    induction h with
    | one x => exact ⟨_, .refl _, .leaf x⟩
    | add _ _ h1 h2 =>
      obtain ⟨xs, p1, t1⟩ := h1
      obtain ⟨ys, p2, t2⟩ := h2
      exact ⟨_, p1.append p2, .node t1 t2⟩
    | perm hp _ h =>
      obtain ⟨ys, p, t⟩ := h
      exact ⟨ys, p.trans hp, t⟩

theorem anySum_ne_nil [Add R] {xs : List R} {s : R} (h : AnySum xs s) : xs ≠ [] := by
  induction h with
  | one x => simp
  | add _ _ h1 _ => simp [h1]
  | perm hp _ h => rintro rfl; exact h (List.perm_nil.1 hp)

theorem anySum_perm [Add R] {xs ys : List R} (hp : xs.Perm ys) {s : R} : AnySum xs s ↔ AnySum ys s :=
  ⟨.perm hp, .perm hp.symm⟩

theorem anySum_sum [AddCommMonoid R] {xs : List R} {s : R} (h : AnySum xs s) : s = xs.sum := by
  induction h with
  | one x => simp
  | add _ _ h1 h2 => rw [h1, h2, List.sum_append]
  | perm hp _ h => rw [h, hp.sum_eq]

theorem anySum_exists [Add R] {xs : List R} (h : xs ≠ []) : ∃ s, AnySum xs s := by
  obtain ⟨s, hs⟩ := sumTree_exists h
  exact ⟨s, anySum_of_tree hs⟩

/-- The coordinates of the processes. -/
theorem coords_perm {d : List Nat} (hp : ∀ n ∈ d, 0 < n) :
    (cellList (List.replicate d.length 0) d).Perm ((List.range d.prod).map (cellAt d)) := by
  rw [List.perm_ext_iff_of_nodup (nodup_cellList _ _)]
  · intro t
    rw [mem_cellList (by simp), inBox_zero]
    simp only [List.mem_map, List.mem_range]
    constructor
    · intro h
      exact ⟨_, rankOf_lt h, cellAt_rankOf h⟩
    · rintro ⟨i, _, rfl⟩
      exact cellAt_inGrid hp i
  · refine List.Nodup.map_on ?_ List.nodup_range
    intro a ha b hb h
    rw [← rankOf_cellAt hp (List.mem_range.1 ha), h, rankOf_cellAt hp (List.mem_range.1 hb)]

section
variable [Zero R] [One R] [Add R] [Sub R] [Mul R] [Div R] [NatCast R] {c : Cfg R}

/-- The check sums of a field: on rank 0 a sum in any order of the sums of the sub-domains; the filters left do not depend on
the order. -/
theorem world_sums_any (hg : c.Good) (hp1 : 1 ≤ c.nprocs) {w : World R} {u v : List Nat → R}
    (hw : Ranks c (fun x f => Holds c x u f ∧ f.outData = boxData (c.lo x) (c.hi x) v) w) (input : Bool) :
    ∃ w', Ranks c (fun x f => Holds c x u f ∧ f.outData = boxData (c.lo x) (c.hi x) v) w' ∧
      (∀ rs w'', w.CheckSum input rs w'' → w'' = w' ∧
        ∃ s, rs[0]? = some s ∧ GridSum c.dims c.d (if input then u else v) s) ∧
      ∀ s, GridSum c.dims c.d (if input then u else v) s → ∃ rs, w.CheckSum input rs w' ∧ rs[0]? = some s := by
  obtain ⟨w', e', h'⟩ := localSum_call hg (Q := fun o x => o = boxData (c.lo x) (c.hi x) v) hw input
  have hd := hg.good.d_pos
  obtain ⟨ps, e1, hl, hP⟩ := mapM_ok w (fun f => f.localSum input)
    (fun i p => ∃ f, w[i]? = some f ∧ p.1 = (if input then f.inData else f.outData).foldl (· + ·) 0) (by
      intro i f hf
      obtain ⟨x, hx, _, hs⟩ := hw.mem hg (List.mem_of_getElem? hf)
      obtain ⟨f', e⟩ := localSum_fold hg hx hs.1.shape input
      exact ⟨_, e, f, hf, rfl⟩)
  have hlen : w.length = c.nprocs := hw.1
  have hfst : ps.map Prod.fst = ((List.range c.d.prod).map (cellAt c.d)).map fun x =>
      boxSum (subLo (localExtents c.dims c.d) x) (subHi (localExtents c.dims c.d) x) (if input then u else v) := by
    apply List.ext_getElem (by simp [hl, hlen, hg.good.valid.2])
    intro i h1 h2
    simp only [List.getElem_map, List.getElem_range]
    have h3 : i < ps.length := by simpa using h1
    have h4 : i < c.d.prod := by simpa using h2
    obtain ⟨f, hf, hp⟩ := hP i ps[i] (List.getElem?_eq_getElem h3)
    have hx := cellAt_inGrid hd i
    obtain ⟨hh, ho⟩ := hw.2 _ f hx (by rw [rankOf_cellAt hd h4]; exact hf)
    rw [hp]
    unfold boxSum
    have hb := cellList_eq (hg.box hx)
    change cellList (subLo (localExtents c.dims c.d) _) (subHi (localExtents c.dims c.d) _) = _ at hb
    rw [hb]
    cases input
    · rw [if_neg (by decide), if_neg (by decide), ho]
      rw [List.map_map]
      rfl
    · rw [if_pos rfl, if_pos rfl, hh.data]
      rw [List.map_map]
      rfl
  have hiff : ∀ s, AnySum (ps.map Prod.fst) s ↔ GridSum c.dims c.d (if input then u else v) s := by
    intro s
    rw [hfst]
    exact (anySum_perm ((coords_perm hd).map _)).symm
  have hps : ps.map Prod.snd = w' := by
    obtain ⟨s, hs⟩ := anySum_exists (xs := ps.map Prod.fst) (by
      intro h0
      have : ps.length = 0 := by simpa using h0
      omega)
    have hc : w.CheckSum input _ (ps.map Prod.snd) := ⟨ps, s, e1, rfl, mpiSum_iff.2 hs, rfl⟩
    have e2 := checkSum_world hc
    rw [e'] at e2
    exact (Except.ok.inj e2).symm
  refine ⟨w', h', ?_, ?_⟩
  · rintro rs w'' ⟨ps', s, e2, rfl, hs, rfl⟩
    rw [e1] at e2
    obtain rfl := Except.ok.inj e2
    refine ⟨hps, s, ?_, (hiff s).1 (mpiSum_iff.1 hs)⟩
    rw [List.getElem?_map, List.getElem?_range (by omega), Option.map_some, if_pos rfl]
  · intro s hs
    refine ⟨_, ⟨ps, s, e1, hps.symm, mpiSum_iff.2 ((hiff s).2 hs), rfl⟩, ?_⟩
    rw [List.getElem?_map, List.getElem?_range (by omega), Option.map_some, if_pos rfl]

omit [One R] [Sub R] [Mul R] [Div R] [NatCast R] in
/-- Only the values in the grid matter for the sums. -/
theorem gridSum_congr {dims d : List Nat} (hv : List.Forall₂ (fun n k => k ∣ n) dims d) {u u' : List Nat → R}
    (h : ∀ g, InGrid dims g → u g = u' g) {s : R} : GridSum dims d u s ↔ GridSum dims d u' s := by
  have hl := length_localExtents hv
  unfold GridSum
  rw [List.map_congr_left]
  intro x hx
  rw [mem_cellList (by simp)] at hx
  have hx' := inBox_zero.1 hx
  have hxl := hx'.length_eq
  unfold boxSum
  rw [List.map_congr_left]
  intro t ht
  rw [mem_cellList (by simp [subLo, subHi])] at ht
  exact h t (sub_inGrid hv hx' ht)

end

section
variable [Zero R] [Add R] [Mul R]

theorem stencilStep64_congr {dims : List Nat} {st : List (List Int × R)} (hl : ∀ p ∈ st, p.1.length = dims.length)
    {u u' : List Nat → R} (h : ∀ g, InGrid dims g → u g = u' g) {g : List Nat} (hg : InGrid dims g) :
    stencilStep64 dims st u g = stencilStep64 dims st u' g := by
  unfold stencilStep64
  have key : ∀ (l : List (List Int × R)) (a : R), (∀ p ∈ l, p.1.length = dims.length) →
      l.foldl (fun acc p => acc + p.2 * u (shift64 dims g p.1)) a =
      l.foldl (fun acc p => acc + p.2 * u' (shift64 dims g p.1)) a := by
    intro l
    induction l with
    | nil => intro a _; rfl
    | cons p l ih =>
      intro a hp
      rw [List.foldl_cons, List.foldl_cons, ih _ (fun q hq => hp q (List.mem_cons_of_mem _ hq)),
        h _ (shift64_inGrid hg (hp p List.mem_cons_self))]
  exact key st 0 hl

theorem stencilIter64_congr {dims : List Nat} {st : List (List Int × R)} (hl : ∀ p ∈ st, p.1.length = dims.length)
    {u u' : List Nat → R} (h : ∀ g, InGrid dims g → u g = u' g) (k : Nat) :
    ∀ g, InGrid dims g → stencilIter64 dims st u k g = stencilIter64 dims st u' k g := by
  induction k with
  | zero => exact h
  | succ k ih => intro g hg; exact stencilStep64_congr hl ih hg

end

section
variable [Zero R] [One R] [Add R] [Sub R] [Mul R] [Div R] [NatCast R] [IntCast R] [LT R] [DecidableLT R] [HasMax R]
  [DoubleText R] {c : Cfg R}

/-- The lines of the steps from `i` on. -/
def linesFrom (i : Nat) (sums : List (R × R)) : List Char :=
  (sums.zipIdx i).flatMap fun p =>
    ("iter " ++ toString p.2 ++ " check sum  in/out = ").toList ++ DoubleText.showDouble p.1.1 ++ " / ".toList ++
      DoubleText.showDouble p.1.2 ++ "\n".toList

/-- The time loop of `upwindMpi`. -/
theorem steps_any (hf : c.Unit) (hcell : ∀ x, InGrid c.d x → c.Cells x) (hp1 : 1 ≤ c.nprocs) {init : List Nat → R} :
    ∀ (n i m : Nat) (w : World R) (v : List Nat → R),
    Ranks c (fun x f => Holds c x (stencilIter64 c.dims c.st init m) f ∧ f.outData = boxData (c.lo x) (c.hi x) v) w →
    ∃ w', Ranks c (fun x f => Holds c x (stencilIter64 c.dims c.st init (m + n)) f ∧
        f.outData = boxData (c.lo x) (c.hi x) (if n = 0 then v else stencilIter64 c.dims c.st init (m + n))) w' ∧
      ∀ y, UpwindMpi.Steps i n w y ↔ ∃ sums : List (R × R), sums.length = n ∧
        (∀ j p, sums[j]? = some p → GridSum c.dims c.d (stencilIter64 c.dims c.st init (m + j)) p.1 ∧
          GridSum c.dims c.d (stencilIter64 c.dims c.st init (m + (j + 1))) p.2) ∧
        y = .ok (linesFrom i sums, w') := by
  have hg := hf.toGood
  intro n
  induction n with
  | zero =>
    intro i m w v hw
    refine ⟨w, hw, fun y => ⟨fun hy => ?_, ?_⟩⟩
    · cases hy
      exact ⟨[], rfl, by simp, rfl⟩
    · rintro ⟨sums, hs, _, rfl⟩
      obtain rfl := List.length_eq_zero_iff.1 hs
      exact .done i w
  | succ n ih =>
    intro i m w v hw
    obtain ⟨w1, e1, h1⟩ := world_apply64 hf hcell ⟨hw.1, fun x f hx hf => (hw.2 x f hx hf).1⟩
    change Ranks c (fun x f => Holds c x (stencilIter64 c.dims c.st init m) f ∧
      f.outData = boxData (c.lo x) (c.hi x) (stencilIter64 c.dims c.st init (m + 1))) w1 at h1
    obtain ⟨w2, h2, a1, a2⟩ := world_sums_any hg hp1 h1 true
    obtain ⟨w3, h3, b1, b2⟩ := world_sums_any hg hp1 h2 false
    obtain ⟨w4, e4, h4⟩ := world_copy hg h3
    obtain ⟨w5, h5, c1⟩ := ih (i + 1) (m + 1) w4 _ h4
    rw [if_pos rfl] at a1 a2
    rw [if_neg (by decide)] at b1 b2
    have hm : ∀ j, m + 1 + j = m + (j + 1) := fun j => by omega
    refine ⟨w5, ?_, fun y => ⟨fun hy => ?_, ?_⟩⟩
    · rw [hm] at h5
      refine ⟨h5.1, fun x f hx hf => ⟨(h5.2 x f hx hf).1, ?_⟩⟩
      rw [(h5.2 x f hx hf).2, if_neg (Nat.succ_ne_zero n)]
      by_cases hn : n = 0
      · subst hn; rw [if_pos rfl]
      · rw [if_neg hn]
    · cases hy with
      | fault _ _ _ e he => rw [e1] at he; exact absurd he (by intro h; cases h)
      | step _ _ _ w1' w2' w3' w4' s1 s2 a b y he k1 k2 k3 k4 ke hy =>
        rw [e1] at he
        obtain rfl := Except.ok.inj he
        obtain ⟨rfl, s, q1, q2⟩ := a1 s1 w2' k1
        rw [k3, Option.some_inj] at q1
        subst q1
        obtain ⟨rfl, s, q1, q3⟩ := b1 s2 w3' k2
        rw [k4, Option.some_inj] at q1
        subst q1
        rw [e4] at ke
        obtain rfl := Except.ok.inj ke
        obtain ⟨sums, l1, l2, rfl⟩ := (c1 y).1 hy
        refine ⟨(a, b) :: sums, by simp [l1], ?_, ?_⟩
        · intro j p hj
          cases j with
          | zero =>
            obtain rfl : (a, b) = p := by simpa using hj
            exact ⟨q2, q3⟩
          | succ j =>
            rw [List.getElem?_cons_succ] at hj
            have := l2 j p hj
            rw [hm, hm] at this
            exact this
        · show Except.ok (_, _) = Except.ok (_, _)
          unfold linesFrom
          rw [List.zipIdx_cons, List.flatMap_cons, showSz_toString, String.toList_append, String.toList_append]
    · rintro ⟨sums, l1, l2, rfl⟩
      cases sums with
      | nil => simp at l1
      | cons p sums =>
        have l0 := l2 0 p rfl
        obtain ⟨s1, k1, k3⟩ := a2 p.1 l0.1
        obtain ⟨s2, k2, k4⟩ := b2 p.2 l0.2
        have hy := (c1 (.ok (linesFrom (i + 1) sums, w5))).2 ⟨sums, by simpa using l1, fun j q hj => by
          rw [hm, hm]; exact l2 (j + 1) q (by rw [List.getElem?_cons_succ]; exact hj), rfl⟩
        have := UpwindMpi.Steps.step i n w w1 w2 w3 w4 s1 s2 p.1 p.2 _ e1 k1 k2 k3 k4 e4 hy
        have he : (Except.ok (linesFrom (i + 1) sums, w5) : M (Str × World R)).map (fun q =>
            ("iter ".toList ++ showSz i ++ " check sum  in/out = ".toList ++ DoubleText.showDouble p.1 ++ " / ".toList ++
              DoubleText.showDouble p.2 ++ "\n".toList ++ q.1, q.2)) = .ok (linesFrom i (p :: sums), w5) := by
          show Except.ok (_, _) = Except.ok (_, _)
          rw [show linesFrom i (p :: sums) = _ from by
            unfold linesFrom
            rw [List.zipIdx_cons, List.flatMap_cons]]
          rw [showSz_toString, String.toList_append, String.toList_append]
          rfl
        rw [he] at this
        exact this

end

/-! The stencil of `laplacian`. -/

section
variable [Zero R] [One R] [Mul R] [Neg R] [NatCast R]

theorem lapStencil_keys (n : Nat) : (lapStencil (R := R) (n + 1)).map Prod.fst =
    ((-1 : Int) :: List.replicate n 0) :: ((lapStencil (R := R) n).map Prod.fst).map (0 :: ·) ++
      [(1 : Int) :: List.replicate n 0] := by
  simp only [lapStencil, List.map_append, List.map_map, List.map_cons, List.map_nil]
  rw [List.range_succ_eq_map, List.reverse_cons, List.map_append, List.map_cons, List.map_cons, List.map_nil, List.map_map,
    ← List.map_reverse, List.map_map]
  simp only [List.cons_append, List.append_assoc, List.singleton_append, List.nil_append]
  rfl

theorem lapStencil_sorted (n : Nat) : ((lapStencil (R := R) n).map Prod.fst).Pairwise (· < ·) := by
  induction n with
  | zero => simp [lapStencil]
  | succ n ih =>
    rw [lapStencil_keys, List.cons_append, List.pairwise_cons, List.pairwise_append]
    refine ⟨fun t ht => ?_, ?_, by simp, fun t ht u hu => ?_⟩
    · rcases List.mem_append.1 ht with h | h
      · obtain ⟨t, _, rfl⟩ := List.mem_map.1 h
        exact List.cons_lt_cons_iff.2 (.inl (by decide))
      · rw [List.mem_singleton.1 h]
        exact List.cons_lt_cons_iff.2 (.inl (by decide))
    · rw [List.pairwise_map]
      exact ih.imp fun h => List.cons_lt_cons_iff.2 (.inr ⟨rfl, h⟩)
    · obtain ⟨t, _, rfl⟩ := List.mem_map.1 ht
      rw [List.mem_singleton.1 hu]
      exact List.cons_lt_cons_iff.2 (.inl (by decide))

theorem lapStencil_perm (n : Nat) : (lapStencil (R := R) n).Perm (lapEntries R n n) := by
  unfold lapStencil lapEntries
  refine List.Perm.trans (l₂ := (List.replicate n 0, -((2 : Nat) : R) * (n : R)) ::
    (((List.range n).map fun i => ((List.replicate n 0).set i (-1), 1)) ++
      (List.range n).map fun i => ((List.replicate n 0).set i 1, 1))) ?_ (List.Perm.cons _ ?_)
  · rw [List.append_assoc, List.singleton_append]
    refine List.perm_middle.trans (List.Perm.cons _ (List.Perm.append_left _ ?_))
    exact (List.reverse_perm _).map _
  · have h := List.flatMap_append_perm (List.range n) (fun i => [(axisOff n i 1, (1 : R))]) (fun i => [(axisOff n i (-1), 1)])
    rw [← List.map_eq_flatMap, ← List.map_eq_flatMap] at h
    exact List.perm_append_comm.trans h

/-- The stencil that `laplacian` builds. -/
theorem laplacian_stencil_eq (n : Nat) : Laplacian.stencil n = .ok (lapStencil (R := R) n) := by
  obtain ⟨st, e, hperm⟩ := laplacian_stencil (R := R) n
  have hsorted : StdMap.Sorted st := by
    unfold Laplacian.stencil at e
    obtain ⟨⟨st', off⟩, e1, e2⟩ := (M.bind_ok_iff _ _ _).1 e
    obtain rfl := Except.ok.inj e2
    refine forUp_ok_inv (fun (s : StdMap (List Int) R × List Int) => StdMap.Sorted s.1) _ _ _ e1
      (StdMap.sorted_insert StdMap.sorted_nil _ _) ?_
    rintro i ⟨s1, o1⟩ s2 hk hb
    unfold Laplacian.axisBody at hb
    dsimp only at hb
    obtain ⟨o2, _, hb⟩ := (M.bind_ok_iff _ _ _).1 hb
    obtain ⟨o3, _, hb⟩ := (M.bind_ok_iff _ _ _).1 hb
    obtain ⟨o4, _, hb⟩ := (M.bind_ok_iff _ _ _).1 hb
    obtain rfl := Except.ok.inj hb
    exact StdMap.sorted_insert (StdMap.sorted_insert hk _ _) _ _
  rw [e]
  congr 1
  have h1 : st.Pairwise (fun p q => p.1 < q.1) := List.pairwise_map.1 hsorted
  have h2 : (lapStencil (R := R) n).Pairwise (fun p q => p.1 < q.1) := List.pairwise_map.1 (lapStencil_sorted n)
  refine List.Perm.eq_of_pairwise ?_ h1 h2 (hperm.trans (lapStencil_perm n).symm)
  intro a b _ _ h3 h4
  exact absurd (lt_trans h3 h4) (lt_irrefl _)

end

section
variable [Zero R] [Add R] [Mul R] {c : Cfg R}

/-- Iterations, with the output data. -/
theorem world_iterate64_out (h : c.Unit) (hc : ∀ x, InGrid c.d x → c.Cells x) (n : Nat) {w : World R} {u v : List Nat → R}
    (hw : Ranks c (fun x f => Holds c x u f ∧ f.outData = boxData (c.lo x) (c.hi x) v) w) :
    ∃ w', w.iterate n = .ok w' ∧ Ranks c (fun x f => Holds c x (stencilIter64 c.dims c.st u n) f ∧
      f.outData = boxData (c.lo x) (c.hi x) (if n = 0 then v else stencilIter64 c.dims c.st u n)) w' := by
  induction n generalizing w u v with
  | zero => exact ⟨w, rfl, hw⟩
  | succ n ih =>
    obtain ⟨w1, e1, h1⟩ := world_apply64 h hc ⟨hw.1, fun x f hx hf => (hw.2 x f hx hf).1⟩
    obtain ⟨w2, e2, h2⟩ := world_copy h.toGood h1
    obtain ⟨w3, e3, h3⟩ := ih h2
    refine ⟨w3, ?_, ?_⟩
    · unfold World.iterate
      rw [e1, M.ok_bind, e2, M.ok_bind, e3]
    · rw [stencilIter64_succ] at h3
      refine ⟨h3.1, fun x f hx hf => ⟨(h3.2 x f hx hf).1, ?_⟩⟩
      rw [(h3.2 x f hx hf).2, if_neg (Nat.succ_ne_zero n)]
      by_cases hn : n = 0
      · subst hn; rw [if_pos rfl]; rfl
      · rw [if_neg hn]

end
end Fidi
