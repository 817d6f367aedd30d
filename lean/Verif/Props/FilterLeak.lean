import Verif.Lemmas.FilterLeak
import Verif.Props.FilterCalls

/-
Property C27: exactly which stencils leak, how much, and in which order memory and windows are released.
-/
namespace Fidi
open Spec

section
variable {R : Type} [Zero R] [Div R] [NatCast R] [LT R] [DecidableLT R] [HasMax R]

/-- C27: for every filter whose constructor found a decomposition and ended normally, one window and two buffers are created for each
offset that is not zero, and one window and two buffers are released for each different side of these offsets. -/
theorem C27_leak_count (rk : Int) (nprocs : Nat) (dims : List Nat) (xmins xmaxs : List R) (st : StdMap (List Int) R)
    (f : Filter R) (hd : dims.length < 2 ^ 64)
    (ho : ∀ kv ∈ st, kv.1.length = dims.length ∧ ∀ o ∈ kv.1, -(2 : Int) ^ 31 < o ∧ o < 2 ^ 31)
    (hf : Filter.new rk nprocs dims xmins xmaxs st = .ok f) (hv : f.validDecomp = true) :
    let sides := (st.filter fun kv => kv.1.any (· ≠ 0)).map fun kv => sideOf kv.1
    (f.destroy.trace.countP fun e => e matches .winCreate _ _) = sides.length ∧
    (f.destroy.trace.countP fun e => e matches .winFree _) = sides.dedup.length ∧
    (f.destroy.trace.countP fun e => e matches .allocMem _) = 2 * sides.length ∧
    (f.destroy.trace.countP fun e => e matches .freeMem _) = 2 * sides.dedup.length := by
  obtain ⟨ht, hk⟩ := new_count (by unfold W; exact hd) ho hf hv
  have hc := windows_card ht hk
  change _ ∧ _ ∧ _ ∧ _
  have c : ∀ (p : MpiEvent → Bool) (a b : Nat), (∀ w, [MpiEvent.allocMem (2 * w), .allocMem (2 * w + 1),
      .winCreate w (2 * w)].countP p = a) → (∀ w, [MpiEvent.freeMem (2 * w), .freeMem (2 * w + 1), .winFree w].countP p = b) →
      f.destroy.trace.countP p = a * (leakSides st).length + b * (leakSides st).dedup.length := by
    intro p a b h1 h2
    rw [destroy_trace ht, List.countP_append]
    congr 1
    · unfold created
      rw [List.countP_flatMap]
      simp only [Function.comp_def, h1]
      simp [Nat.mul_comm]
    · unfold released
      rw [List.countP_flatMap]
      simp only [Function.comp_def, h2]
      rw [List.map_const', List.sum_replicate, List.length_map, hc]
      exact Nat.mul_comm _ _
  refine ⟨?_, ?_, ?_, ?_⟩
  · rw [c _ 1 0 (fun w => rfl) (fun w => rfl)]; simp [leakSides]
  · rw [c _ 0 1 (fun w => rfl) (fun w => rfl)]; simp [leakSides]
  · rw [c _ 2 0 (fun w => rfl) (fun w => rfl)]; simp [leakSides]
  · rw [c _ 0 2 (fun w => rfl) (fun w => rfl)]; simp [leakSides]

/-- C27: over the life of such a filter everything that is acquired is released if and only if no two offsets that are not zero have the
same side. -/
theorem C27_released_iff (rk : Int) (nprocs : Nat) (dims : List Nat) (xmins xmaxs : List R) (st : StdMap (List Int) R)
    (f : Filter R) (hd : dims.length < 2 ^ 64)
    (ho : ∀ kv ∈ st, kv.1.length = dims.length ∧ ∀ o ∈ kv.1, -(2 : Int) ^ 31 < o ∧ o < 2 ^ 31)
    (hf : Filter.new rk nprocs dims xmins xmaxs st = .ok f) (hv : f.validDecomp = true) :
    ((∀ b, MpiEvent.allocMem b ∈ f.destroy.trace → MpiEvent.freeMem b ∈ f.destroy.trace) ∧
      (∀ w b, MpiEvent.winCreate w b ∈ f.destroy.trace → MpiEvent.winFree w ∈ f.destroy.trace)) ↔
    ((st.filter fun kv => kv.1.any (· ≠ 0)).map fun kv => sideOf kv.1).Nodup := by
  obtain ⟨ht, hk⟩ := new_count (by unfold W; exact hd) ho hf hv
  have hc := windows_card ht hk
  change _ ↔ (leakSides st).Nodup
  have hlt : ∀ w ∈ f.windows.map Prod.snd, w < (leakSides st).length := by
    intro w hw
    obtain ⟨⟨s, w'⟩, h, rfl⟩ := List.mem_map.1 hw
    exact (ht.link _ _ ((StdMap.mem_iff_find ht.sorted _ _).1 h)).1
  have hiff : (leakSides st).Nodup ↔ ∀ w < (leakSides st).length, w ∈ f.windows.map Prod.snd := by
    have hsub : f.windows.map Prod.snd ⊆ List.range (leakSides st).length := fun w hw => List.mem_range.2 (hlt w hw)
    have hsp := (nodup_windows ht).subperm hsub
    constructor
    · intro h w hw
      have := hsp.perm_of_length_le (by rw [List.length_map, hc, h.dedup, List.length_range])
      exact this.mem_iff.2 (List.mem_range.2 hw)
    · intro h
      have h1 : (leakSides st).length ≤ (leakSides st).dedup.length := by
        have := (List.nodup_range (n := (leakSides st).length)).subperm
          (fun w hw => h w (List.mem_range.1 hw) : List.range (leakSides st).length ⊆ f.windows.map Prod.snd)
        have := this.length_le
        rwa [List.length_range, List.length_map, hc] at this
      have := (List.dedup_sublist (leakSides st)).eq_of_length_le h1
      rw [← this]
      exact List.nodup_dedup _
  rw [hiff, destroy_trace ht]
  constructor
  · rintro ⟨_, h⟩ w hw
    have := h w (2 * w) (List.mem_append_left _ (mem_created.2 ⟨w, hw, .inr (.inr rfl)⟩))
    rcases List.mem_append.1 this with c | c
    · obtain ⟨w', _, c⟩ := mem_created.1 c
      simp at c
    · obtain ⟨w', hw', c⟩ := mem_released.1 c
      have : w = w' := by simpa using c
      rw [this]; exact hw'
  · intro h
    constructor
    · intro b hb
      rcases List.mem_append.1 hb with c | c
      · obtain ⟨w, hw, c⟩ := mem_created.1 c
        refine List.mem_append_right _ (mem_released.2 ⟨w, h w hw, ?_⟩)
        rcases c with c | c | c
        · left; simpa using c
        · right; left; simpa using c
        · cases c
      · obtain ⟨w', _, c⟩ := mem_released.1 c
        simp at c
    · intro w b hb
      rcases List.mem_append.1 hb with c | c
      · obtain ⟨w', hw, c⟩ := mem_created.1 c
        have : w = w' := by simpa using (show w = w' ∧ b = 2 * w' by simpa using c).1
        exact List.mem_append_right _ (mem_released.2 ⟨w', h w' hw, .inr (.inr (by rw [this]))⟩)
      · obtain ⟨w', _, c⟩ := mem_released.1 c
        simp at c

/-- C27: in every filter, whatever the stencil, the memory of a window that is released is always freed while the window still exposes
it: at that point the window exists and has not been freed, it is freed later. -/
theorem C27_always_freed_while_exposed (rk : Int) (nprocs : Nat) (dims : List Nat) (xmins xmaxs : List R)
    (st : StdMap (List Int) R) (f : Filter R) (hf : Filter.new rk nprocs dims xmins xmaxs st = .ok f) (w : Nat)
    (hw : MpiEvent.winFree w ∈ f.destroy.trace) :
    ∃ pre post b, f.destroy.trace = pre ++ .freeMem b :: post ∧ MpiEvent.winCreate w b ∈ pre ∧ MpiEvent.winFree w ∉ pre ∧
      MpiEvent.winFree w ∈ post := by
  obtain ⟨_, _, _, _, _, _, n, ht, _⟩ := new_tables hf
  rw [destroy_trace ht] at hw ⊢
  rcases List.mem_append.1 hw with c | c
  · obtain ⟨w', _, c⟩ := mem_created.1 c
    simp at c
  obtain ⟨w', hw', c⟩ := mem_released.1 c
  have e : w = w' := by simpa using c
  subst e
  have hlt : w < n := by
    obtain ⟨⟨s, w'⟩, h, rfl⟩ := List.mem_map.1 hw'
    exact (ht.link _ _ ((StdMap.mem_iff_find ht.sorted _ _).1 h)).1
  have hnd := nodup_windows ht
  obtain ⟨l1, l2, hl⟩ := List.append_of_mem hw'
  rw [hl] at hnd ⊢
  have hw1 : w ∉ l1 := by
    intro h
    have := (List.nodup_append.1 hnd).2.2 w h w (by simp)
    exact this rfl
  refine ⟨created n ++ released l1, .freeMem (2 * w + 1) :: .winFree w :: released l2, 2 * w, ?_, ?_, ?_, ?_⟩
  · unfold released
    rw [List.flatMap_append, List.flatMap_cons, List.append_assoc]
    rfl
  · exact List.mem_append_left _ (mem_created.2 ⟨w, hlt, .inr (.inr rfl)⟩)
  · intro h
    rcases List.mem_append.1 h with c | c
    · obtain ⟨w', _, c⟩ := mem_created.1 c
      simp at c
    · obtain ⟨w', h', c⟩ := mem_released.1 c
      have : w = w' := by simpa using c
      exact hw1 (this ▸ h')
  · simp

end

/-- C27: three offsets of which two have the same side, and the zero offset: three windows are created and two freed. -/
example : (Filter.new 0 1 [8] [0] [1] [([-1], 1), ([0], 2), ([1], 1), ([2], 1)] : M (Filter ℚ)) >>= (fun f =>
    pure (f.validDecomp, f.destroy.trace.countP (fun e => e matches .winCreate _ _),
      f.destroy.trace.countP fun e => e matches .winFree _)) = .ok (true, 3, 2) ∧
    ([[-1], [1], [2]].map sideOf).dedup.length = 2 := by
  constructor <;> decide +kernel

end Fidi
