import Verif.Model.Machine
import Mathlib.Data.List.Basic

/-
Helper lemmas about the machine layer: reasoning rules for loops, reads, writes and wrapping arithmetic.
-/
namespace Fidi

@[simp] theorem M.pure_eq {α} (x : α) : (pure x : M α) = Except.ok x := rfl
@[simp] theorem M.throw_eq {α} (e : UB) : (throw e : M α) = Except.error e := rfl
@[simp] theorem M.ok_bind {α β} (x : α) (f : α → M β) : (Except.ok x >>= f) = f x := rfl
@[simp] theorem M.error_bind {α β} (e : UB) (f : α → M β) : ((Except.error e : M α) >>= f) = Except.error e := rfl

theorem M.bind_ok_iff {α β} (x : M α) (f : α → M β) (y : β) :
    (x >>= f) = .ok y ↔ ∃ a, x = .ok a ∧ f a = .ok y := by
  cases x with
  | error e => simp
  | ok a => simp

theorem W_pos : 0 < W := by decide
theorem W_eq : W = 2 ^ 64 := by decide
theorem W32_eq : W32 = 2 ^ 32 := by decide
theorem intLim_eq : intLim = 2 ^ 31 := by decide

theorem szAdd_of_lt {a b : Nat} (h : a + b < W) : szAdd a b = a + b := Nat.mod_eq_of_lt h
theorem szMul_of_lt {a b : Nat} (h : a * b < W) : szMul a b = a * b := Nat.mod_eq_of_lt h
theorem szSub_of_le {a b : Nat} (hb : b ≤ a) (ha : a < W) : szSub a b = a - b := by
  unfold szSub
  rw [Nat.mod_eq_of_lt (a := b) (by omega)]
  rw [show a + (W - b) = (a - b) + W by omega, Nat.add_mod_right, Nat.mod_eq_of_lt (by omega)]
theorem szDiv_of_pos {a b : Nat} (hb : 0 < b) : szDiv a b = .ok (a / b) := by
  unfold szDiv; rw [if_neg (by omega)]; rfl
theorem szMod_of_pos {a b : Nat} (hb : 0 < b) : szMod a b = .ok (a % b) := by
  unfold szMod; rw [if_neg (by omega)]; rfl

theorem szAdd_lt (a b : Nat) : szAdd a b < W := Nat.mod_lt _ W_pos
theorem szMul_lt (a b : Nat) : szMul a b < W := Nat.mod_lt _ W_pos
theorem szSub_lt (a b : Nat) : szSub a b < W := Nat.mod_lt _ W_pos

theorem rd_of_lt {α} {v : List α} {i : Nat} (h : i < v.length) : rd v i = .ok v[i] := by
  unfold rd; rw [List.getElem?_eq_getElem h]; rfl
theorem rd_of_some {α} {v : List α} {i : Nat} {x : α} (h : v[i]? = some x) : rd v i = .ok x := by
  unfold rd; rw [h]; rfl
theorem rd_of_ge {α} {v : List α} {i : Nat} (h : v.length ≤ i) : rd v i = .error .outOfBounds := by
  unfold rd; rw [List.getElem?_eq_none h]; rfl
theorem wr_of_lt {α} {v : List α} {i : Nat} {x : α} (h : i < v.length) : wr v i x = .ok (v.set i x) := by
  unfold wr; rw [if_pos h]; rfl
theorem wr_of_ge {α} {v : List α} {i : Nat} {x : α} (h : v.length ≤ i) :
    wr v i x = .error .outOfBounds := by
  unfold wr; rw [if_neg (by omega)]; rfl

@[simp] theorem length_resize {α} (v : List α) (n : Nat) (d : α) : (resize v n d).length = n := by
  simp [resize]; omega

theorem forUp_of_ge {σ} {a b : Nat} (h : b ≤ a) (s : σ) (f : Nat → σ → M σ) : forUp a b s f = .ok s := by
  unfold forUp; rw [Nat.sub_eq_zero_of_le h]; rfl

theorem forUp_of_lt {σ} {a b : Nat} (h : a < b) (s : σ) (f : Nat → σ → M σ) :
    forUp a b s f = (f a s >>= fun s' => forUp (a + 1) b s' f) := by
  unfold forUp
  rw [show b - a = (b - (a + 1)) + 1 by omega, List.range'_succ, List.foldlM_cons]

theorem forUp_split {σ} {a m b : Nat} (h1 : a ≤ m) (h2 : m ≤ b) (s : σ) (f : Nat → σ → M σ) :
    forUp a b s f = (forUp a m s f >>= fun s' => forUp m b s' f) := by
  unfold forUp
  rw [← List.foldlM_append]
  congr 1
  rw [show b - a = (m - a) + (b - m) by omega, ← List.range'_append]
  congr 2
  omega

theorem forUp_succ {σ} {a b : Nat} (h : a ≤ b) (s : σ) (f : Nat → σ → M σ) :
    forUp a (b + 1) s f = (forUp a b s f >>= fun s' => f b s') := by
  rw [forUp_split h (Nat.le_succ b)]
  congr 1; funext s'
  rw [forUp_of_lt (Nat.lt_succ_self b)]
  cases f b s' with
  | error e => rfl
  | ok s'' => exact forUp_of_ge (Nat.le_refl _) _ _

/-- Loop rule: an invariant indexed by the loop counter. -/
theorem forUp_inv {σ} {a b : Nat} (hab : a ≤ b) (P : Nat → σ → Prop) (f : Nat → σ → M σ) (s : σ)
    (h0 : P a s)
    (hs : ∀ i s, a ≤ i → i < b → P i s → ∃ s', f i s = .ok s' ∧ P (i + 1) s') :
    ∃ s', forUp a b s f = .ok s' ∧ P b s' := by
  obtain ⟨k, rfl⟩ := Nat.exists_eq_add_of_le hab
  induction k with
  | zero => exact ⟨s, forUp_of_ge (Nat.le_refl _) _ _, h0⟩
  | succ n ih =>
    obtain ⟨s1, e1, p1⟩ := ih (by omega) (fun i s h1 h2 => hs i s h1 (by omega))
    obtain ⟨s2, e2, p2⟩ := hs (a + n) s1 (by omega) (by omega) p1
    exact ⟨s2, by rw [← Nat.add_assoc, forUp_succ (by omega), e1]; exact e2, p2⟩

/-- Loop rule for the counting-down loop. -/
theorem forDown_inv {σ} (n : Nat) (P : Nat → σ → Prop) (f : Nat → σ → M σ) (s : σ)
    (h0 : P n s)
    (hs : ∀ i s, i < n → P (i + 1) s → ∃ s', f i s = .ok s' ∧ P i s') :
    ∃ s', forDown n s f = .ok s' ∧ P 0 s' := by
  induction n generalizing s with
  | zero => exact ⟨s, rfl, h0⟩
  | succ n ih =>
    obtain ⟨s1, e1, p1⟩ := hs n s (by omega) h0
    obtain ⟨s2, e2, p2⟩ := ih s1 p1 (fun i s h => hs i s (by omega))
    exact ⟨s2, by simp only [forDown, e1, M.ok_bind]; exact e2, p2⟩

/-- A loop that writes entry `i` of a vector at iteration `i` produces the vector of those entries. -/
theorem forUp_fill {α} (n : Nat) (v : List α) (hv : v.length = n) (g : Nat → α)
    (f : Nat → List α → M (List α))
    (hf : ∀ i v, i < n → v.length = n → (∀ j, j < i → v[j]? = some (g j)) → f i v = .ok (v.set i (g i))) :
    forUp 0 n v f = .ok ((List.range n).map g) := by
  obtain ⟨s, e, hl, hp⟩ := forUp_inv (Nat.zero_le n)
    (fun i (s : List α) => s.length = n ∧ ∀ j, j < i → s[j]? = some (g j)) f v
    ⟨hv, by intro j hj; omega⟩
    (by
      intro i s _ hi ⟨hl, hp⟩
      refine ⟨_, hf i s hi hl hp, by simpa using hl, ?_⟩
      intro j hj
      rw [List.getElem?_set]
      by_cases hji : i = j
      · subst hji; simp [hl, hi]
      · simp only [hji, if_false]; exact hp j (by omega))
  rw [e]
  congr 1
  apply List.ext_getElem?
  intro j
  by_cases hj : j < n
  · rw [hp j hj]; simp [hj]
  · rw [List.getElem?_eq_none (by omega)]
    rw [List.getElem?_eq_none (by simp; omega)]

/-- A loop body that fails at iteration `i`, after succeeding before, makes the loop fail. -/
theorem forUp_error {σ} {a b i : Nat} (hai : a ≤ i) (hib : i < b) (s si : σ) (f : Nat → σ → M σ) (e : UB)
    (h1 : forUp a i s f = .ok si) (h2 : f i si = .error e) : forUp a b s f = .error e := by
  rw [forUp_split hai (Nat.le_of_lt hib), h1, M.ok_bind, forUp_of_lt hib, h2]; rfl

/-- If a loop succeeds, its body succeeded at every iteration. -/
theorem forUp_ok_body {σ} {a b : Nat} (s s' : σ) (f : Nat → σ → M σ) (h : forUp a b s f = .ok s') :
    ∀ i, a ≤ i → i < b → ∃ si si', f i si = .ok si' := by
  intro i h1 h2
  rw [forUp_split h1 (Nat.le_of_lt h2)] at h
  cases e : forUp a i s f with
  | error x => rw [e] at h; cases h
  | ok si =>
    rw [e, M.ok_bind, forUp_of_lt h2] at h
    cases e2 : f i si with
    | error x => rw [e2] at h; cases h
    | ok si' => exact ⟨si, si', e2⟩


theorem szSub_int (a b : Nat) : szSub a b = (((a : Int) - (b : Int)) % 2 ^ 64).toNat := by
  unfold szSub W
  omega

theorem szOfInt_ofNat {n : Nat} (h : n < W) : szOfInt (n : Int) = n := by
  unfold szOfInt
  rw [Int.emod_eq_of_lt (by omega) (by exact_mod_cast h)]; simp

theorem szOfInt_lt (x : Int) : szOfInt x < W := by
  unfold szOfInt
  have h1 : x % (W : Int) < W := Int.emod_lt_of_pos _ (by decide)
  have h0 : 0 ≤ x % (W : Int) := Int.emod_nonneg _ (by decide)
  omega

theorem intOfSz_of_lt {n : Nat} (h : n < intLim) : intOfSz n = n := by
  unfold intOfSz
  have : (n : Int) < 2147483648 := by have := h; unfold intLim at this; omega
  rw [Int.bmod_eq_of_le] <;> (unfold W32; omega)

theorem mkInt_ok {x : Int} (h1 : -(intLim : Int) ≤ x) (h2 : x < intLim) : mkInt x = .ok x := by
  unfold mkInt inInt
  simp [h1, h2]

/-- To show by evaluation that a computation ends normally with a result satisfying `p`. -/
theorem exists_ok {α : Type} {x : M α} {p : α → Prop} [DecidablePred p]
    (h : (match x with | .ok a => decide (p a) | .error _ => false) = true) : ∃ a, x = .ok a ∧ p a := by
  cases x with
  | error e => simp at h
  | ok a => exact ⟨a, rfl, by simpa using h⟩

theorem exists_ok_pair {α β : Type} [DecidableEq β] {x : M (β × α)} {b : β} {p : α → Prop} [DecidablePred p]
    (h : (match x with | .ok (b', a) => decide (b' = b ∧ p a) | .error _ => false) = true) :
    ∃ a, x = .ok (b, a) ∧ p a := by
  cases x with
  | error e => simp at h
  | ok a =>
    simp only [decide_eq_true_eq] at h
    exact ⟨a.2, by rw [← h.1], h.2⟩

end Fidi
