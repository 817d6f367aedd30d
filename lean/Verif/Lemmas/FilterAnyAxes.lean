import Verif.Lemmas.FilterAny

/-
Which offsets find all the cells they need in the windows of their neighbours: `OffsetWorks`.
-/
namespace Fidi
open Spec
variable {R : Type} {c : Cfg R} {x y : List Nat}

/-! One axis. -/

theorem toNat_emod {z : Int} {N v : Nat} (hv : v < N) (k : Int) (h : z = v + N * k) : (z % (N : Int)).toNat = v := by
  rw [h, Int.add_mul_emod_self_left, Int.emod_eq_of_lt (by omega) (by omega)]
  rfl

/-- The cell at position `r` of sub-domain `x` of `D` sub-domains of `L` cells, displaced by `o`, is at position `q` of
sub-domain `y`. -/
def AxisTo (D L x r : Nat) (o : Int) (y q : Nat) : Prop :=
  q < L ∧ y < D ∧
  ((r + o < 0 ∧ (q : Int) = r + o + L ∧ (x = 0 ∧ y + 1 = D ∨ x = y + 1)) ∨
   (0 ≤ r + o ∧ r + o < L ∧ (q : Int) = r + o ∧ y = x) ∨
   ((L : Int) ≤ r + o ∧ (q : Int) = r + o - L ∧ (x + 1 = D ∧ y = 0 ∨ y = x + 1)))

theorem axis_to {D L x r : Nat} {o : Int} (hx : x < D) (hr : r < L) (ho : o.natAbs ≤ L) :
    ∃ y q, AxisTo D L x r o y q ∧ ((((x * L + r : Nat) : Int) + o) % ((D * L : Nat) : Int)).toNat = y * L + q := by
  have h1 : (x + 1) * L ≤ D * L := Nat.mul_le_mul_right _ hx
  rw [Nat.add_mul, Nat.one_mul] at h1
  by_cases hlow : (r : Int) + o < 0
  · by_cases hx0 : x = 0
    · have h2 : (D - 1) * L + L = D * L := by
        obtain ⟨D', rfl⟩ : ∃ D', D = D' + 1 := ⟨D - 1, by omega⟩
        rw [Nat.add_mul]; simp
      refine ⟨D - 1, (r + o + L).toNat, ⟨by omega, by omega, Or.inl ⟨hlow, by omega, Or.inl ⟨hx0, by omega⟩⟩⟩, ?_⟩
      refine toNat_emod (by omega) (-1) ?_
      subst hx0
      push_cast at h2 ⊢
      omega
    · have h2 : (x - 1) * L + L = x * L := by
        obtain ⟨x', rfl⟩ : ∃ x', x = x' + 1 := ⟨x - 1, by omega⟩
        rw [Nat.add_mul]; simp
      refine ⟨x - 1, (r + o + L).toNat, ⟨by omega, by omega, Or.inl ⟨hlow, by omega, Or.inr (by omega)⟩⟩, ?_⟩
      refine toNat_emod (by omega) 0 ?_
      push_cast at h2 ⊢
      omega
  · by_cases hmid : (r : Int) + o < L
    · refine ⟨x, (r + o).toNat, ⟨by omega, by omega, Or.inr (Or.inl ⟨by omega, hmid, by omega, rfl⟩)⟩, ?_⟩
      refine toNat_emod (by omega) 0 ?_
      push_cast
      omega
    · by_cases hxD : x + 1 = D
      · have h2 : D * L = x * L + L := by rw [← hxD, Nat.add_mul, Nat.one_mul]
        refine ⟨0, (r + o - L).toNat, ⟨by omega, by omega, Or.inr (Or.inr ⟨by omega, by omega, Or.inl ⟨hxD, rfl⟩⟩)⟩, ?_⟩
        refine toNat_emod (by omega) 1 ?_
        push_cast at h2 ⊢
        omega
      · have h2 : (x + 1) * L = x * L + L := by rw [Nat.add_mul, Nat.one_mul]
        have h3 : (x + 2) * L ≤ D * L := Nat.mul_le_mul_right _ (by omega)
        have h4 : (x + 2) * L = x * L + 2 * L := by rw [Nat.add_mul]
        refine ⟨x + 1, (r + o - L).toNat, ⟨by omega, by omega, Or.inr (Or.inr ⟨by omega, by omega, Or.inr rfl⟩)⟩, ?_⟩
        refine toNat_emod (by omega) 0 ?_
        rw [h2]
        push_cast
        omega

theorem block_unique {L y y' q : Nat} (hq : q < L) (h1 : y' * L ≤ y * L + q) (h2 : y * L + q < (y' + 1) * L) : y = y' := by
  by_contra hne
  rcases Nat.lt_or_gt_of_ne hne with h | h
  · have := Nat.mul_le_mul_right L (by omega : y + 1 ≤ y')
    rw [Nat.add_mul, Nat.one_mul] at this
    omega
  · have := Nat.mul_le_mul_right L (by omega : y' + 1 ≤ y)
    omega

/-! Cells. -/

/-- Where a cell goes. -/
theorem target_axis (h : c.Good) (hx : InGrid c.d x) {kv : List Int × R} (hkv : kv ∈ c.st) {g : List Nat}
    (hg : InBox (c.lo x) (c.hi x) g) {k : Nat} (hk : k < c.dims.length) :
    ∃ r y q, r < c.L.getD k 0 ∧ g.getD k 0 = x.getD k 0 * c.L.getD k 0 + r ∧
      AxisTo (c.d.getD k 0) (c.L.getD k 0) (x.getD k 0) r (kv.1.getD k 0) y q ∧
      (shiftMod c.dims g kv.1).getD k 0 = y * c.L.getD k 0 + q := by
  obtain ⟨s1, s2, s3, s4, s5⟩ := axis_sizes h hk
  have hb := h.boxD hx hg hk
  rw [s1, Nat.add_mul, Nat.one_mul] at hb
  have hab : (kv.1.getD k 0).natAbs ≤ c.L.getD k 0 := by
    by_cases h0 : kv.1.getD k 0 = 0
    · rw [h0]; simp
    · exact Nat.le_trans (natAbs_le_ghostWidth kv.1 k) (fits_axis h hkv h0).1
  obtain ⟨y, q, h1, h2⟩ := axis_to (r := g.getD k 0 - x.getD k 0 * c.L.getD k 0) (h.ltD hx hk) (by omega) hab
  refine ⟨_, y, q, by omega, by omega, h1, ?_⟩
  rw [getD_shiftMod k hk (h.grid hx hg).length_eq (h.st kv hkv).1, s2, ← h2]
  congr 3
  omega

theorem box_axis (h : c.Good) (hx : InGrid c.d x) {t : List Nat} (hl : t.length = c.dims.length) :
    InBox (c.lo x) (c.hi x) t ↔ ∀ k, k < c.dims.length →
      x.getD k 0 * c.L.getD k 0 ≤ t.getD k 0 ∧ t.getD k 0 < (x.getD k 0 + 1) * c.L.getD k 0 := by
  rw [inBox_iff_getD, h.len_lo hx, h.len_hi hx]
  constructor
  · rintro ⟨_, _, h3⟩ k hk
    have := h3 k hk
    rwa [h.getD_lo hx hk, h.getD_hi hx hk, ← h.getD_L hk] at this
  · intro h3
    refine ⟨hl, rfl, fun k hk => ?_⟩
    have := h3 k hk
    rwa [h.getD_lo hx hk, h.getD_hi hx hk, ← h.getD_L hk]

theorem window_axis (h : c.Good) (hy : InGrid c.d y) {kv : List Int × R} (hkv : kv ∈ c.st) {t : List Nat} {m : Nat}
    (hl : t.length = c.dims.length) (hm : (StdMap.find c.tab.gh (sideOf kv.1)).getD 0 = m) :
    InWindow c y kv.1 t ↔ ∀ k, k < c.dims.length →
      (if kv.1.getD k 0 < 0 then (y.getD k 0 + 1) * c.L.getD k 0 - m else y.getD k 0 * c.L.getD k 0) ≤ t.getD k 0 ∧
      t.getD k 0 < if 0 < kv.1.getD k 0 then y.getD k 0 * c.L.getD k 0 + m else (y.getD k 0 + 1) * c.L.getD k 0 := by
  have hf := fits_any h hkv
  obtain ⟨_, l1, l2, _⟩ := layer_box h hy hf
  have e : ∀ k, k < c.dims.length → _ := fun k hk => layer_axis h hy hf hk
  unfold InWindow
  rw [inBox_iff_getD, l1, l2]
  rw [hm] at e ⊢
  have sg : ∀ k, ((sideOf kv.1).getD k 0 < 0 ↔ 0 < kv.1.getD k 0) ∧ (0 < (sideOf kv.1).getD k 0 ↔ kv.1.getD k 0 < 0) := by
    intro k
    rw [getD_sideOf]
    rcases lt_trichotomy (kv.1.getD k 0) 0 with h | h | h
    · rw [Int.sign_eq_neg_one_of_neg h]; omega
    · rw [h]; simp
    · rw [Int.sign_eq_one_of_pos h]; omega
  constructor
  · rintro ⟨_, _, h3⟩ k hk
    obtain ⟨e1, e2, _, _⟩ := e k hk
    have := h3 k hk
    rw [e1, e2] at this
    simpa only [(sg k).1, (sg k).2] using this
  · intro h3
    refine ⟨hl, rfl, fun k hk => ?_⟩
    obtain ⟨e1, e2, _, _⟩ := e k hk
    rw [e1, e2]
    simpa only [(sg k).1, (sg k).2] using h3 k hk

/-! Ranks. -/

theorem rankOfInt_add {d : List Nat} {t u v : List Int} (ht : t.length = d.length) (hu : u.length = d.length)
    (hv : v.length = d.length) (h : ∀ i, i < d.length → t.getD i 0 = u.getD i 0 + v.getD i 0) :
    rankOfInt d t = rankOfInt d u + rankOfInt d v := by
  induction d generalizing t u v with
  | nil => simp [rankOfInt]
  | cons n d ih =>
    match t, u, v, ht, hu, hv with
    | a :: t, b :: u, e :: v, ht, hu, hv =>
      have ht' : t.length = d.length := by simpa using ht
      have hu' : u.length = d.length := by simpa using hu
      have hv' : v.length = d.length := by simpa using hv
      rw [rankOfInt_cons n d a t ht', rankOfInt_cons n d b u hu', rankOfInt_cons n d e v hv',
        ih ht' hu' hv' (fun i hi => by simpa using h (i + 1) (by simpa using hi))]
      have : a = b + e := by simpa using h 0 (by simp)
      rw [this]
      ring

theorem rankOfInt_pos {d : List Nat} (hp : ∀ k ∈ d, 0 < k) {t : List Int} (ht : t.length = d.length)
    (h : ∀ z ∈ t, 0 ≤ z) : 0 ≤ rankOfInt d t ∧ (rankOfInt d t = 0 → ∀ z ∈ t, z = 0) := by
  induction d generalizing t with
  | nil =>
    obtain rfl := List.length_eq_zero_iff.1 ht
    simp [rankOfInt]
  | cons n d ih =>
    match t, ht with
    | a :: t, ht =>
      have ht' : t.length = d.length := by simpa using ht
      obtain ⟨i1, i2⟩ := ih (fun k hk => hp k (by simp [hk])) ht' (fun z hz => h z (by simp [hz]))
      have ha := h a (by simp)
      have hpp : 0 < d.prod := prod_pos_of fun k hk => hp k (by simp [hk])
      have hpp' : (0 : Int) < (d.prod : Nat) := by exact_mod_cast hpp
      rw [rankOfInt_cons n d a t ht']
      have hm : 0 ≤ a * (d.prod : Nat) := by positivity
      refine ⟨by omega, fun h0 z hz => ?_⟩
      have h1 : a * (d.prod : Nat) = 0 := by omega
      have h2 : a = 0 := by
        rcases mul_eq_zero.1 h1 with h | h
        · exact h
        · omega
      rcases List.mem_cons.1 hz with rfl | hz
      · exact h2
      · exact i2 (by omega) z hz

end Fidi
