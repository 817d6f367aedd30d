import Verif.Model.Matmult
import Verif.Spec.Matmult
import Verif.Lemmas.Machine
import Verif.Lemmas.ScheduleEnd
import Mathlib.Data.List.GetD
import Mathlib.Data.List.FinRange
import Mathlib.Tactic.Linarith

/-
Closed forms of the subroutines of matmult.F90.
-/
set_option linter.unusedSectionVars false

namespace Fidi
open Spec

namespace Fortran

/-- Loop rule. -/
theorem doUp_inv {σ : Type} {n : Nat} (hn : n + 1 < 2 ^ 31) (P : Nat → σ → Prop) (f : Nat → σ → M σ) (s : σ)
    (h0 : P 0 s) (hs : ∀ i s, i < n → P i s → ∃ s', f (i + 1) s = .ok s' ∧ P (i + 1) s') :
    ∃ s', doUp n s f = .ok s' ∧ P n s' := by
  obtain ⟨s', e, h⟩ := forUp_inv (a := 1) (b := n + 1) (by omega) (fun i s => P (i - 1) s) f s h0 (by
    intro i s h1 h2 h3
    obtain ⟨s', e, h⟩ := hs (i - 1) s (by omega) h3
    rw [Nat.sub_add_cancel h1] at e h
    exact ⟨s', e, h⟩)
  refine ⟨s', ?_, h⟩
  have : endsPast n = false := by
    simp [endsPast, intLim]; omega
  unfold doUp
  rw [e]
  simp only [M.ok_bind, this]
  rfl

end Fortran

namespace Matmult
open Fortran
variable {R : Type}

/-- The elements of an array are given by `F` (indices from 1). -/
structure Is (n m : Nat) (a : Mat R) (F : Nat → Nat → R) : Prop where
  rows : a.rows = n
  cols : a.cols = m
  len : a.data.length = n * m
  get : ∀ i j, 1 ≤ i → i ≤ n → 1 ≤ j → j ≤ m → a.data[(j - 1) * n + (i - 1)]? = some (F i j)

theorem pos_inj {n i j i' j' : Nat} (hi : 1 ≤ i) (hi' : 1 ≤ i') (hn : i ≤ n) (hn' : i' ≤ n) (hj : 1 ≤ j) (hj' : 1 ≤ j')
    (h : (j - 1) * n + (i - 1) = (j' - 1) * n + (i' - 1)) : i = i' ∧ j = j' := by
  have h1 : ((j - 1) * n + (i - 1)) % n = i - 1 := by
    rw [Nat.add_comm, Nat.add_mul_mod_self_right, Nat.mod_eq_of_lt (by omega)]
  have h2 : ((j' - 1) * n + (i' - 1)) % n = i' - 1 := by
    rw [Nat.add_comm, Nat.add_mul_mod_self_right, Nat.mod_eq_of_lt (by omega)]
  have h3 : ((j - 1) * n + (i - 1)) / n = j - 1 := by
    rw [Nat.add_comm, Nat.add_mul_div_right _ _ (by omega), Nat.div_eq_of_lt (by omega)]; omega
  have h4 : ((j' - 1) * n + (i' - 1)) / n = j' - 1 := by
    rw [Nat.add_comm, Nat.add_mul_div_right _ _ (by omega), Nat.div_eq_of_lt (by omega)]; omega
  rw [h, h2] at h1
  rw [h, h4] at h3
  omega

theorem pos_lt {n m i j : Nat} (hi : 1 ≤ i) (hn : i ≤ n) (hj : 1 ≤ j) (hm : j ≤ m) : (j - 1) * n + (i - 1) < n * m := by
  obtain ⟨j, rfl⟩ : ∃ j', j = j' + 1 := ⟨j - 1, by omega⟩
  obtain ⟨m, rfl⟩ : ∃ m', m = m' + 1 := ⟨m - 1, by omega⟩
  have : j * n ≤ m * n := Nat.mul_le_mul_right _ (by omega)
  rw [Nat.mul_comm n, Nat.add_mul]
  simp only [Nat.add_sub_cancel]
  omega

/-- A function of two indices changed at one place. -/
def upd2 (F : Nat → Nat → R) (i j : Nat) (x : R) : Nat → Nat → R := fun i' j' => if i' = i ∧ j' = j then x else F i' j'

variable {n m : Nat} {a : Mat R} {F : Nat → Nat → R}

theorem Is.getE (h : Is n m a F) {i j : Nat} (h1 : 1 ≤ i) (h2 : i ≤ n) (h3 : 1 ≤ j) (h4 : j ≤ m) :
    a.get i j = .ok (F i j) := by
  unfold Mat.get Mat.pos
  rw [h.rows, h.cols, if_pos ⟨h1, h2, h3, h4⟩]
  simp only [M.pure_eq, M.ok_bind]
  exact rd_of_some (h.get i j h1 h2 h3 h4)

theorem Is.putE (h : Is n m a F) {i j : Nat} (h1 : 1 ≤ i) (h2 : i ≤ n) (h3 : 1 ≤ j) (h4 : j ≤ m) (x : R) :
    ∃ a', a.put i j x = .ok a' ∧ Is n m a' (upd2 F i j x) := by
  have hlt := pos_lt h1 h2 h3 h4
  refine ⟨{ a with data := a.data.set ((j - 1) * n + (i - 1)) x }, ?_, h.rows, h.cols, by simp [h.len], ?_⟩
  · unfold Mat.put Mat.pos
    rw [h.rows, h.cols, if_pos ⟨h1, h2, h3, h4⟩]
    simp only [M.pure_eq, M.ok_bind]
    rw [wr_of_lt (by rw [h.len]; exact hlt)]
    rfl
  · intro i' j' k1 k2 k3 k4
    simp only [List.getElem?_set, upd2]
    by_cases e : (j - 1) * n + (i - 1) = (j' - 1) * n + (i' - 1)
    · obtain ⟨e1, e2⟩ := pos_inj h1 k1 h2 k2 h3 k3 e
      subst e1 e2
      simp [h.len, hlt]
    · rw [if_neg e, if_neg]
      · exact h.get i' j' k1 k2 k3 k4
      · rintro ⟨rfl, rfl⟩; exact e rfl

theorem Is.congr (h : Is n m a F) {G : Nat → Nat → R}
    (e : ∀ i j, 1 ≤ i → i ≤ n → 1 ≤ j → j ≤ m → F i j = G i j) : Is n m a G :=
  ⟨h.rows, h.cols, h.len, fun i j h1 h2 h3 h4 => by rw [h.get i j h1 h2 h3 h4, e i j h1 h2 h3 h4]⟩

theorem Is.ext (h : Is n m a F) {a' : Mat R} (h' : Is n m a' F) : a = a' := by
  obtain ⟨r, c, d⟩ := a
  obtain ⟨r', c', d'⟩ := a'
  obtain ⟨h1, h2, h3, h4⟩ := h
  obtain ⟨k1, k2, k3, k4⟩ := h'
  simp only at *
  subst h1 h2 k1 k2
  congr 1
  apply List.ext_getElem?
  intro p
  by_cases hp : p < r' * c'
  · have hr : 0 < r' := Nat.pos_of_ne_zero (by rintro rfl; simp at hp)
    have e : (p / r' + 1 - 1) * r' + (p % r' + 1 - 1) = p := by
      simp only [Nat.add_sub_cancel]
      rw [Nat.mul_comm]; exact Nat.div_add_mod p r'
    have q1 := Nat.mod_lt p hr
    have q2 : p / r' < c' := by
      rw [Nat.div_lt_iff_lt_mul hr, Nat.mul_comm]; exact hp
    have a1 := h4 (p % r' + 1) (p / r' + 1) (by omega) (by omega) (Nat.le_add_left 1 _) (by omega)
    have a2 := k4 (p % r' + 1) (p / r' + 1) (by omega) (by omega) (Nat.le_add_left 1 _) (by omega)
    rw [e] at a1 a2
    rw [a1, a2]
  · rw [List.getElem?_eq_none (by omega), List.getElem?_eq_none (by omega)]

variable [Zero R] [Add R] [Mul R]

theorem Is.elem (h : Is n m a F) {i j : Nat} (h1 : 1 ≤ i) (h2 : i ≤ n) (h3 : 1 ≤ j) (h4 : j ≤ m) : a.elem i j = F i j := by
  unfold Mat.elem
  rw [h.rows, List.getD_eq_getElem?_getD, h.get i j h1 h2 h3 h4]
  rfl

/-- Sum of the first `l` products. -/
def partialDot (F G : Nat → Nat → R) (i k l : Nat) : R :=
  (List.range' 1 l).foldl (fun acc j => acc + F i j * G j k) 0

theorem partialDot_succ (F G : Nat → Nat → R) (i k l : Nat) :
    partialDot F G i k (l + 1) = partialDot F G i k l + F i (l + 1) * G (l + 1) k := by
  unfold partialDot
  rw [List.range'_concat]
  simp [Nat.add_comm]

variable {el : Nat} {b c : Mat R} {G H : Nat → Nat → R}

theorem matmult0_eq [One R] [Sub R] (hn : n + 1 < 2 ^ 31) (hm : m + 1 < 2 ^ 31) (he : el + 1 < 2 ^ 31) (ha : Is n m a F)
    (hb : Is m el b G) (hc : Is n el c H) :
    ∃ c', matmult0 a b c = .ok c' ∧ Is n el c' fun i k => partialDot F G i k m := by
  unfold matmult0
  rw [ha.rows, hb.rows, hc.cols]
  obtain ⟨c', e, h⟩ := doUp_inv he (fun k c => Is n el c fun i k' => if k' ≤ k then partialDot F G i k' m else H i k')
    (fun k c => doUp n c fun i c => do
      let c ← c.put i k 0
      doUp m c fun j c => do c.put i k ((← c.get i k) + (← a.get i j) * (← b.get j k))) c
    (hc.congr fun i k h1 h2 h3 h4 => by rw [if_neg (by omega)])
    (by
      intro k c hk hc
      obtain ⟨c', e, h⟩ := doUp_inv hn (fun i c => Is n el c fun i' k' =>
          if k' ≤ k ∨ (k' = k + 1 ∧ i' ≤ i) then partialDot F G i' k' m else H i' k')
        (fun i c => do
          let c ← c.put i (k + 1) 0
          doUp m c fun j c => do c.put i (k + 1) ((← c.get i (k + 1)) + (← a.get i j) * (← b.get j (k + 1)))) c
        (hc.congr fun i k' h1 h2 h3 h4 => by
          congr 1
          simp; omega)
        (by
          intro i c hi hc
          obtain ⟨c1, e1, h1⟩ := hc.putE (i := i + 1) (j := k + 1) (by omega) (by omega) (by omega) (by omega) 0
          rw [e1]
          simp only [M.ok_bind]
          obtain ⟨c2, e2, h2⟩ := doUp_inv hm (fun j c => Is n el c (upd2 (fun i' k' =>
              if k' ≤ k ∨ (k' = k + 1 ∧ i' ≤ i) then partialDot F G i' k' m else H i' k') (i + 1) (k + 1)
              (partialDot F G (i + 1) (k + 1) j)))
            (fun j c => do c.put (i + 1) (k + 1) ((← c.get (i + 1) (k + 1)) + (← a.get (i + 1) j) * (← b.get j (k + 1))))
            c1 h1
            (by
              intro j c hj hc
              rw [hc.getE (by omega) (by omega) (by omega) (by omega),
                ha.getE (by omega) (by omega) (by omega) (by omega),
                hb.getE (by omega) (by omega) (by omega) (by omega)]
              simp only [M.ok_bind]
              obtain ⟨c3, e3, h3⟩ := hc.putE (i := i + 1) (j := k + 1) (by omega) (by omega) (by omega) (by omega)
                (upd2 (fun i' k' => if k' ≤ k ∨ (k' = k + 1 ∧ i' ≤ i) then partialDot F G i' k' m else H i' k') (i + 1)
                  (k + 1) (partialDot F G (i + 1) (k + 1) j) (i + 1) (k + 1) + F (i + 1) (j + 1) * G (j + 1) (k + 1))
              refine ⟨c3, e3, h3.congr fun i' k' _ _ _ _ => ?_⟩
              rw [partialDot_succ]
              simp only [upd2, and_self, if_true]
              split <;> rfl)
          refine ⟨c2, e2, h2.congr fun i' k' _ _ _ _ => ?_⟩
          simp only [upd2]
          split
          · next h => obtain ⟨rfl, rfl⟩ := h; simp
          · next h =>
            congr 1
            simp only [eq_iff_iff]
            constructor
            · rintro (h' | ⟨h1', h2'⟩)
              · exact Or.inl h'
              · exact Or.inr ⟨h1', by omega⟩
            · rintro (h' | ⟨h1', h2'⟩)
              · exact Or.inl h'
              · refine Or.inr ⟨h1', ?_⟩
                by_contra h3'
                exact h ⟨by omega, h1'⟩)
      refine ⟨c', e, h.congr fun i k' h1 h2 _ _ => ?_⟩
      congr 1
      simp only [eq_iff_iff]
      omega)
  exact ⟨c', e, h.congr fun i k _ _ _ h4 => by rw [if_pos h4]⟩

/-! ### Initialization -/

/-- The nested loops of `initmat`. -/
theorem fill_eq {R : Type} [Zero R] [One R] [Add R] {n m : Nat} {a : Mat R} {F : Nat → Nat → R} (hn : n + 1 < 2 ^ 31)
    (hm : m + 1 < 2 ^ 31) (ha : Is n m a F) {N : Nat → R} (hN : ∀ t, N (t + 1) = N t + 1)
    (start : Nat) :
    ∃ a', (doUp m (a, N start) fun j s => doUp n s fun i (s : Mat R × R) => do
        pure (← s.1.put i j s.2, s.2 + 1)) = .ok (a', N (start + n * m)) ∧
      Is n m a' fun i j => N (start + (j - 1) * n + (i - 1)) := by
  obtain ⟨⟨a', c⟩, e, h, hc⟩ := doUp_inv hm (fun j (s : Mat R × R) =>
      Is n m s.1 (fun i j' => if j' ≤ j then N (start + (j' - 1) * n + (i - 1)) else F i j') ∧
      s.2 = N (start + n * j))
    (fun j s => doUp n s fun i (s : Mat R × R) => do pure (← s.1.put i j s.2, s.2 + 1)) (a, N start)
    ⟨ha.congr fun i j _ _ h3 _ => by rw [if_neg (by omega)], by simp⟩
    (by
      rintro j ⟨a, c⟩ hj ⟨ha, hc⟩
      obtain ⟨s', e, h, hc'⟩ := doUp_inv hn (fun i (s : Mat R × R) =>
          Is n m s.1 (fun i' j' => if j' ≤ j ∨ (j' = j + 1 ∧ i' ≤ i) then N (start + (j' - 1) * n + (i' - 1))
            else F i' j') ∧ s.2 = N (start + n * j + i))
        (fun i (s : Mat R × R) => do pure (← s.1.put i (j + 1) s.2, s.2 + 1)) (a, c)
        ⟨ha.congr fun i j' h1 _ _ _ => by congr 1; simp only [eq_iff_iff]; omega, by simpa using hc⟩
        (by
          rintro i ⟨a, c⟩ hi ⟨ha, hc⟩
          simp only at ha hc
          obtain ⟨a1, e1, h1⟩ := ha.putE (i := i + 1) (j := j + 1) (by omega) (by omega) (by omega) (by omega) c
          refine ⟨(a1, c + 1), by simp only [e1, M.ok_bind, M.pure_eq], h1.congr fun i' j' q1 _ q2 _ => ?_, ?_⟩
          · simp only [upd2]
            split
            · next h =>
              obtain ⟨rfl, rfl⟩ := h
              rw [if_pos (by simp), hc]
              congr 1
              simp only [Nat.add_sub_cancel]
              rw [Nat.mul_comm]
            · next h =>
              congr 1
              simp only [eq_iff_iff]
              constructor
              · rintro (h' | ⟨h1', h2'⟩)
                · exact Or.inl h'
                · exact Or.inr ⟨h1', by omega⟩
              · rintro (h' | ⟨h1', h2'⟩)
                · exact Or.inl h'
                · refine Or.inr ⟨h1', ?_⟩
                  by_contra h3'
                  exact h ⟨by omega, h1'⟩
          · simp only [hc]
            rw [← hN]
            rfl)
      refine ⟨s', e, h.congr fun i j' _ _ _ _ => ?_, by rw [hc', Nat.mul_succ, Nat.add_assoc]⟩
      congr 1
      simp only [eq_iff_iff]
      omega)
  simp only at h hc
  subst hc
  exact ⟨a', e, h.congr fun i j _ _ _ h4 => by rw [if_pos h4]⟩

theorem initmat_any {R : Type} [Zero R] [One R] [Add R] {n m el : Nat} {a b : Mat R} {F G : Nat → Nat → R} {N : Nat → R}
    (hN : ∀ t, N (t + 1) = N t + 1) (start : Nat) (h1 : N start = 1) (hn : n + 1 < 2 ^ 31) (hm : m + 1 < 2 ^ 31)
    (he : el + 1 < 2 ^ 31) (ha : Is n m a F) (hb : Is m el b G) :
    ∃ a' b', initmat a b = .ok (a', b') ∧ Is n m a' (fun i j => N (start + (j - 1) * n + (i - 1))) ∧
      Is m el b' (fun j k => N (start + n * m + (k - 1) * m + (j - 1))) := by
  obtain ⟨a', ea, ha'⟩ := fill_eq hn hm ha hN start
  obtain ⟨b', eb, hb'⟩ := fill_eq hm he hb hN (start + n * m)
  refine ⟨a', b', ?_, ha', hb'⟩
  unfold initmat
  rw [h1] at ea
  rw [ha.rows, hb.rows, hb.cols]
  simp only
  rw [ea]
  simp only [M.ok_bind]
  rw [eb]
  rfl

theorem initmat_eq {R : Type} [AddMonoidWithOne R] {n m el : Nat} {a b : Mat R} {F G : Nat → Nat → R}
    (hn : n + 1 < 2 ^ 31) (hm : m + 1 < 2 ^ 31) (he : el + 1 < 2 ^ 31) (ha : Is n m a F) (hb : Is m el b G) :
    ∃ a' b', initmat a b = .ok (a', b') ∧ Is n m a' (fun i j => ((1 + (j - 1) * n + (i - 1) : Nat) : R)) ∧
      Is m el b' (fun j k => ((1 + n * m + (k - 1) * m + (j - 1) : Nat) : R)) :=
  initmat_any (N := fun t => (t : R)) (fun t => Nat.cast_succ t) 1 Nat.cast_one hn hm he ha hb

/-! ### The concurrent loop -/

theorem termsProg_safe {owner : Loc → Option Nat} {alloc : Loc → Prop} {w i k : Nat} (hc : alloc (.c, i, k))
    (ho : owner (.c, i, k) = some w) {rest : Prog Loc R} (hr : Safe owner alloc w rest) : ∀ l j,
    (∀ j', j ≤ j' → j' < j + l → alloc (.a, i, j') ∧ alloc (.b, j', k) ∧ owner (.a, i, j') = none ∧
      owner (.b, j', k) = none) → Safe owner alloc w (termsProg i k rest l j)
  | 0, _, _ => hr
  | l + 1, j, h => by
    obtain ⟨h1, h2, h3, h4⟩ := h j (by omega) (by omega)
    exact .read hc (Or.inr ho) fun x => .read h1 (Or.inl h3) fun y => .read h2 (Or.inl h4) fun z =>
      .write hc ho (termsProg_safe hc ho hr l (j + 1) fun j' h1 h2 => h j' (by omega) (by omega))

/-- Columns belong to the iterations. -/
def owners (_ : Nat) : Loc → Option Nat
  | (.c, _, k) => some (k - 1)
  | _ => none

theorem endDo_eq {n : Nat} (hn : n + 1 < 2 ^ 31) (rest : Prog Loc R) : endDo n rest = rest := by
  have : endsPast n = false := by
    simp [endsPast, intLim]; omega
  simp [endDo, this]

theorem rowsProg_safe (hm : m + 1 < 2 ^ 31) (ha : Is n m a F) (hb : Is m el b G) (hc : Is n el c H) {k : Nat} (h1 : 1 ≤ k)
    (h2 : k ≤ el) {rest : Prog Loc R} (hr : Safe (owners 0) (allocated a b c) (k - 1) rest) : ∀ l i, 1 ≤ i → i + l ≤ n + 1 →
      Safe (owners 0) (allocated a b c) (k - 1) (rowsProg m k rest l i)
  | 0, _, _, _ => hr
  | l + 1, i, hi, hl => by
    have hal : allocated a b c (.c, i, k) := by
      simp only [allocated, hc.rows, hc.cols]; omega
    unfold rowsProg
    rw [endDo_eq hm]
    refine .write hal rfl (termsProg_safe hal rfl (rowsProg_safe hm ha hb hc h1 h2 hr l (i + 1) (by omega) (by omega))
      m 1 fun j' h3 h4 => ⟨?_, ?_, rfl, rfl⟩)
    · simp only [allocated, ha.rows, ha.cols]; omega
    · simp only [allocated, hb.rows, hb.cols]; omega

theorem matmult1_raceFree [One R] [Sub R] (hn : n + 1 < 2 ^ 31) (hm : m + 1 < 2 ^ 31) (ha : Is n m a F) (hb : Is m el b G)
    (hc : Is n el c H) : RaceFree (matmult1 a b c) (allocated a b c) owners where
  safe := by
    intro p i hp hi
    simp only [matmult1, hc.cols, ha.rows, hb.rows] at hp hi ⊢
    have : p = 0 := by omega
    subst this
    unfold columnProg
    rw [endDo_eq hn]
    exact rowsProg_safe hm ha hb hc (k := i + 1) (by omega) (by omega) .done n 1 (by omega) (by omega)

theorem termsProg_len {i k B : Nat} {rest : Prog Loc R} (hr : rest.LenLe B) : ∀ l j,
    (termsProg i k rest l j).LenLe (4 * l + B)
  | 0, _ => by simpa [termsProg] using hr
  | l + 1, j => by
    rw [show 4 * (l + 1) + B = 4 * l + B + 1 + 1 + 1 + 1 by omega]
    exact .read fun x => .read fun y => .read fun z => .write (termsProg_len hr l (j + 1))

theorem rowsProg_len (hm : m + 1 < 2 ^ 31) {k : Nat} : ∀ l i,
    (rowsProg (R := R) m k .done l i).LenLe (l * (4 * m + 1))
  | 0, _ => .done _
  | l + 1, i => by
    unfold rowsProg
    rw [endDo_eq hm, show (l + 1) * (4 * m + 1) = 4 * m + l * (4 * m + 1) + 1 by ring]
    exact .write (termsProg_len (rowsProg_len hm l (i + 1)) m 1)

theorem termsProg_run {i k : Nat} {rest : Prog Loc R} : ∀ l j (mem : Mem Loc R),
    (termsProg i k rest l j).run mem = rest.run (mem.set (.c, i, k) ((List.range' j l).foldl
      (fun acc j => acc + mem (.a, i, j) * mem (.b, j, k)) (mem (.c, i, k))))
  | 0, j, mem => by
    simp only [termsProg, List.range'_zero, List.foldl_nil]
    congr 1
    funext l
    simp only [Mem.set]
    split
    · next h => rw [h]
    · rfl
  | l + 1, j, mem => by
    simp only [termsProg, Prog.run]
    rw [termsProg_run l (j + 1)]
    congr 1
    funext loc
    simp only [Mem.set, List.range'_succ, List.foldl_cons]
    split
    · simp
    · rfl

theorem rowsProg_run (hm : m + 1 < 2 ^ 31) {k : Nat} : ∀ l i (mem : Mem Loc R) (i' : Nat),
    (rowsProg m k .done l i).run mem (.c, i', k) =
      if i ≤ i' ∧ i' < i + l then partialDot (fun i j => mem (.a, i, j)) (fun j k => mem (.b, j, k)) i' k m
      else mem (.c, i', k)
  | 0, i, mem, i' => by simp [rowsProg, Prog.run]
  | l + 1, i, mem, i' => by
    unfold rowsProg
    rw [endDo_eq hm]
    simp only [Prog.run]
    rw [termsProg_run, rowsProg_run hm l (i + 1)]
    have e1 : ∀ x y, (fun i j => (Mem.set (Mem.set mem (.c, i, k) x) (.c, i, k) y) (.a, i, j)) =
        fun i j => mem (.a, i, j) := by
      intro x y; funext i j; simp [Mem.set]
    by_cases h : i' = i
    · subst h
      rw [if_neg (by omega), if_pos (by omega)]
      simp [Mem.set, partialDot]
    · by_cases h' : i + 1 ≤ i' ∧ i' < i + 1 + l
      · rw [if_pos h', if_pos (by omega)]
        simp [Mem.set, partialDot]
      · rw [if_neg h', if_neg (by omega)]
        simp [Mem.set, h]

theorem memory_dot (ha : Is n m a F) (hb : Is m el b G) {i k : Nat} (h1 : 1 ≤ i) (h2 : i ≤ n) (h3 : 1 ≤ k) (h4 : k ≤ el) :
    partialDot (fun i j => memory a b c (.a, i, j)) (fun j k => memory a b c (.b, j, k)) i k m = partialDot F G i k m := by
  unfold partialDot
  apply List.foldl_ext
  intro acc j hj
  rw [List.mem_range'_1] at hj
  simp only [memory]
  rw [ha.elem h1 h2 (by omega) (by omega), hb.elem (by omega) (by omega) h3 h4]

/-- The memory at the end of the concurrent loop. -/
theorem matmult1_final [One R] [Sub R] (hn : n + 1 < 2 ^ 31) (hm : m + 1 < 2 ^ 31) (ha : Is n m a F) (hb : Is m el b G)
    (hc : Is n el c H) {i k : Nat} (h1 : 1 ≤ i) (h2 : i ≤ n) (h3 : 1 ≤ k) (h4 : k ≤ el) :
    (matmult1 a b c).seq (memory a b c) (.c, i, k) = partialDot F G i k m := by
  have hr := matmult1_raceFree hn hm ha hb hc
  unfold Region.seq
  simp only [matmult1, List.range_one, List.foldl_cons, List.foldl_nil]
  have := seqPhase_eq hr (k := 0) (by simp [matmult1]) (memory a b c)
  simp only [matmult1] at this
  rw [this]
  have hlt : k - 1 < c.cols := by rw [hc.cols]; omega
  simp only [phaseMem, owners, hlt, if_true]
  rw [ha.rows, hb.rows, Nat.sub_add_cancel h3]
  unfold columnProg
  rw [endDo_eq hn, rowsProg_run hm, if_pos ⟨h1, by omega⟩, memory_dot ha hb h1 h2 h3 h4]

end Matmult
end Fidi
