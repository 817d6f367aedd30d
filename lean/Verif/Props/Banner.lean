import Verif.Lemmas.Banner
import Verif.Lemmas.ScheduleOne

/-
Property C61: what the Fortran programs say about the threads.
-/
namespace Fidi
open FUpwind

/-- Thread `t` executes iteration `t`. -/
def ownThread (_ i t : Nat) : Prop := i = t

/-- The number of times each of the threads has announced OpenMP, and the number of threads each of them has printed (0: nothing). -/
def said (T : Nat) (m : Mem BannerLoc Int) : List (Int × Int) :=
  (List.range T).map fun t => (m (.enabled t), m (.line t))

section
variable {T : Nat}

/-- Nothing has been written. -/
def Silent (m : Mem BannerLoc Int) : Prop := ∀ t, m (.enabled t) = 0 ∧ m (.line t) = 0

/-- What thread `t` does after the assignments. -/
def bannerRest (t : Nat) : Prog BannerLoc Int :=
  .read .threadId fun id => if id = 0 then .write (.enabled t) 1 (bannerLine t) else bannerLine t

/-- Memory after the assignments of thread `t`. -/
def bannerSet (T t : Nat) (m : Mem BannerLoc Int) : Mem BannerLoc Int :=
  (((((m.set .numThreads 1).set .maxNumThreads 1).set .threadId 0).set .numThreads T).set .maxNumThreads T).set .threadId t

theorem bannerProg_after (t : Nat) (m : Mem BannerLoc Int) : (bannerProg T t).after 6 m = (bannerRest t, bannerSet T t m) := rfl

theorem bannerSet_silent {t : Nat} {m : Mem BannerLoc Int} (h : Silent m) : Silent (bannerSet T t m) := by
  intro t'
  have := h t'
  simpa [bannerSet, Mem.set] using this

theorem bannerRest_other {t : Nat} {m : Mem BannerLoc Int} (h : m .threadId ≠ 0) : (bannerRest t).after 2 m = (.done, m) := by
  simp [bannerRest, bannerLine, Prog.after, h]

theorem bannerProg_other {t : Nat} (ht : t ≠ 0) (m : Mem BannerLoc Int) :
    (bannerProg T t).after 8 m = (.done, bannerSet T t m) := by
  show (bannerRest t).after 2 (bannerSet T t m) = _
  exact bannerRest_other (by simp [bannerSet, Mem.set]; omega)

theorem banner_start (T : Nat) (m0 : Mem BannerLoc Int) :
    PReach (banner T) T ownThread m0 (ownState T (bannerProg T) m0) :=
  ownState_take rfl rfl fun _ _ => rfl

/-- All threads but the first two do their iteration before. -/
theorem banner_others (h2 : 2 ≤ T) : ∃ P m, PReach (banner T) T ownThread (fun _ => 0) (ownState T P m) ∧ Silent m ∧
    P 0 = bannerProg T 0 ∧ P 1 = bannerProg T 1 ∧ ∀ t, 2 ≤ t → t < T → P t = .done := by
  have key : ∀ j, j + 2 ≤ T → ∃ P m, PReach (banner T) T ownThread (fun _ => 0) (ownState T P m) ∧ Silent m ∧
      P 0 = bannerProg T 0 ∧ P 1 = bannerProg T 1 ∧ (∀ t, 2 ≤ t → t < j + 2 → P t = .done) ∧
      ∀ t, j + 2 ≤ t → P t = bannerProg T t := by
    intro j
    induction j with
    | zero =>
      intro _
      exact ⟨_, _, banner_start T _, fun _ => ⟨rfl, rfl⟩, rfl, rfl, fun t h1 h2 => by omega, fun _ _ => rfl⟩
    | succ j ih =>
      intro hj
      obtain ⟨P, m, hP, hm, h0, h1, hd, hr⟩ := ih (by omega)
      have := ownState_go (t := j + 2) (by omega) 8 hP
      rw [hr (j + 2) le_rfl, bannerProg_other (by omega)] at this
      refine ⟨_, _, this, bannerSet_silent hm, ?_, ?_, ?_, ?_⟩
      · simpa [updAt] using h0
      · simpa [updAt] using h1
      · intro t ht1 ht2
        by_cases e : t = j + 2
        · simp [updAt, e]
        · simpa [updAt, e] using hd t ht1 (by omega)
      · intro t ht
        simpa [updAt, show t ≠ j + 2 by omega] using hr t (by omega)
  obtain ⟨P, m, hP, hm, h0, h1, hd, _⟩ := key (T - 2) (by omega)
  exact ⟨P, m, hP, hm, h0, h1, fun t ht1 ht2 => hd t ht1 (by omega)⟩

end

/-- C61 is false for every number of threads from two on, because the threads share the variables: there are executions where no
thread prints the number of threads, where all print it, and where one thread prints and says 1. -/
theorem C61_fortran_threads_fails (T : Nat) (hT : 2 ≤ T) :
    (∃ s, PReach (banner T) T ownThread (fun _ => 0) s ∧ s.Final (banner T) T ∧
      said T s.mem = List.replicate T (0, 0)) ∧
    (∃ s, PReach (banner T) T ownThread (fun _ => 0) s ∧ s.Final (banner T) T ∧
      said T s.mem = List.replicate T (1, (T : Int))) ∧
    (∃ s, PReach (banner T) T ownThread (fun _ => 0) s ∧ s.Final (banner T) T ∧
      said T s.mem = (1, 1) :: List.replicate (T - 1) (0, 0)) := by
  have hsaid : ∀ (m : Mem BannerLoc Int) (f : Nat → Int × Int), (∀ t, t < T → (m (.enabled t), m (.line t)) = f t) →
      said T m = (List.range T).map f := by
    intro m f h
    exact List.map_congr_left fun t ht => h t (List.mem_range.1 ht)
  refine ⟨?_, ?_, ?_⟩
  · obtain ⟨P, m, hP, hm, h0, h1, hd⟩ := banner_others hT
    have a1 := ownState_go (t := 0) (by omega) 6 hP
    rw [h0, bannerProg_after] at a1
    have a2 := ownState_go (t := 1) (by omega) 6 a1
    rw [show updAt P 0 (bannerRest 0) 1 = bannerProg T 1 by simpa [updAt] using h1, bannerProg_after] at a2
    have a3 := ownState_go (t := 0) (by omega) 2 a2
    rw [show updAt (updAt P 0 (bannerRest 0)) 1 (bannerRest 1) 0 = bannerRest 0 by simp [updAt],
      bannerRest_other (by simp [bannerSet, Mem.set])] at a3
    have a4 := ownState_go (t := 1) (by omega) 2 a3
    rw [show updAt (updAt (updAt P 0 (bannerRest 0)) 1 (bannerRest 1)) 0 .done 1 = bannerRest 1 by simp [updAt],
      bannerRest_other (by simp [bannerSet, Mem.set])] at a4
    obtain ⟨s, hs, hf, hm'⟩ := ownState_final rfl rfl (fun t ht => by
      by_cases e1 : t = 1
      · simp [updAt, e1]
      · by_cases e0 : t = 0
        · simp [updAt, e0]
        · simpa [updAt, e0, e1] using hd t (by omega) ht) a4
    refine ⟨s, hs, hf, ?_⟩
    rw [hm', hsaid _ (fun _ => (0, 0))]
    · simp
    · intro t _
      have := bannerSet_silent (T := T) (t := 1) (bannerSet_silent (T := T) (t := 0) hm) t
      simp [this.1, this.2]
  · -- all threads but the first make their assignments, then the first
    have key : ∀ j, j + 1 ≤ T → ∃ P m, PReach (banner T) T ownThread (fun _ => 0) (ownState T P m) ∧ Silent m ∧
        P 0 = bannerProg T 0 ∧ (∀ t, 1 ≤ t → t < j + 1 → P t = bannerRest t) ∧ ∀ t, j + 1 ≤ t → P t = bannerProg T t := by
      intro j
      induction j with
      | zero =>
        intro _
        exact ⟨_, _, banner_start T _, fun _ => ⟨rfl, rfl⟩, rfl, fun t h1 h2 => by omega, fun _ _ => rfl⟩
      | succ j ih =>
        intro hj
        obtain ⟨P, m, hP, hm, h0, hd, hr⟩ := ih (by omega)
        have := ownState_go (t := j + 1) (by omega) 6 hP
        rw [hr (j + 1) le_rfl, bannerProg_after] at this
        refine ⟨_, _, this, bannerSet_silent hm, ?_, ?_, ?_⟩
        · simpa [updAt] using h0
        · intro t ht1 ht2
          by_cases e : t = j + 1
          · simp [updAt, e]
          · simpa [updAt, e] using hd t ht1 (by omega)
        · intro t ht
          simpa [updAt, show t ≠ j + 1 by omega] using hr t (by omega)
    obtain ⟨P, m, hP, hm, h0, hd, _⟩ := key (T - 1) (by omega)
    have a1 := ownState_go (t := 0) (by omega) 6 hP
    rw [h0, bannerProg_after] at a1
    -- then one after the other prints
    have key2 : ∀ j, j ≤ T → ∃ P m, PReach (banner T) T ownThread (fun _ => 0) (ownState T P m) ∧
        m .threadId = 0 ∧ m .numThreads = T ∧ (∀ t, t < j → P t = .done ∧ m (.enabled t) = 1 ∧ m (.line t) = T) ∧
        ∀ t, j ≤ t → t < T → P t = bannerRest t := by
      intro j
      induction j with
      | zero =>
        intro _
        refine ⟨_, _, a1, by simp [bannerSet, Mem.set], by simp [bannerSet, Mem.set], fun t ht => by omega, ?_⟩
        intro t _ ht
        by_cases e : t = 0
        · simp [updAt, e]
        · simpa [updAt, e] using hd t (by omega) (by omega)
      | succ j ih =>
        intro hj
        obtain ⟨P, m, hP, hi, hn, hd, hr⟩ := ih (by omega)
        have := ownState_go (t := j) (by omega) 6 hP
        rw [hr j le_rfl (by omega)] at this
        have e : (bannerRest j).after 6 m = (.done, (m.set (.enabled j) 1).set (.line j) T) := by
          simp [bannerRest, bannerLine, Prog.after, hi, Mem.set, hn]
        rw [e] at this
        refine ⟨_, _, this, by simp [Mem.set, hi], by simp [Mem.set, hn], ?_, ?_⟩
        · intro t ht
          by_cases e : t = j
          · simp [updAt, e, Mem.set]
          · simpa [updAt, e, Mem.set] using hd t (by omega)
        · intro t ht1 ht2
          simpa [updAt, show t ≠ j by omega] using hr t (by omega) ht2
    obtain ⟨P, m, hP, _, _, hd, _⟩ := key2 T le_rfl
    obtain ⟨s, hs, hf, hm'⟩ := ownState_final rfl rfl (fun t ht => (hd t ht).1) hP
    refine ⟨s, hs, hf, ?_⟩
    rw [hm', hsaid _ (fun _ => (1, (T : Int))) (fun t ht => by simp [(hd t ht).2.1, (hd t ht).2.2])]
    simp
  · obtain ⟨P, m, hP, hm, h0, h1, hd⟩ := banner_others hT
    have a1 := ownState_go (t := 0) (by omega) 9 hP
    have e1 : (bannerProg T 0).after 9 m = (.read .numThreads fun n => .read .maxNumThreads fun _ => .write (.line 0) n .done,
        (bannerSet T 0 m).set (.enabled 0) 1) := by
      show (bannerRest 0).after 3 (bannerSet T 0 m) = _
      have hid : bannerSet T 0 m .threadId = 0 := by simp [bannerSet, Mem.set]
      simp [bannerRest, bannerLine, Prog.after, hid, Mem.set]
    rw [h0, e1] at a1
    have a2 := ownState_go (t := 1) (by omega) 1 a1
    simp only [updAt, show (1 : Nat) ≠ 0 by omega, if_false, h1] at a2
    have a3 := ownState_go (t := 0) (by omega) 3 a2
    have a4 := ownState_go (t := 1) (by omega) 7 a3
    obtain ⟨s, hs, hf, hm'⟩ := ownState_final rfl rfl (fun t ht => by
      by_cases e1 : t = 1
      · simp [updAt, e1, Prog.after, bannerProg, bannerLine, Mem.set]
      · by_cases e0 : t = 0
        · simp [updAt, e0, Prog.after]
        · simpa [updAt, e0, e1] using hd t (by omega) ht) a4
    refine ⟨s, hs, hf, ?_⟩
    rw [hm', hsaid _ (fun t => if t = 0 then (1, 1) else (0, 0))]
    · obtain ⟨T', rfl⟩ : ∃ T', T = T' + 1 := ⟨T - 1, by omega⟩
      rw [List.range_succ_eq_map]
      simp [Function.comp_def]
    · intro t _
      have := hm t
      by_cases e : t = 0
      · simp [e, updAt, Prog.after, bannerProg, bannerLine, bannerSet, Mem.set]
      · simp [e, updAt, Prog.after, bannerProg, bannerLine, bannerSet, Mem.set, this]

/-- C61, the part that holds: with one thread every execution prints the number of threads once, and it is right; no execution is stuck.
Missing: two or more threads (`C61_fortran_threads_fails`). -/
theorem C61_fortran_threads_partial (m : Mem BannerLoc Int) (s : PState BannerLoc Int)
    (hs : PReach (banner 1) 1 ownThread m s) :
    (s.Final (banner 1) 1 → said 1 s.mem = [(1, 1)]) ∧
    (¬ s.Final (banner 1) 1 → ∃ s', PStep (banner 1) 1 ownThread s s') := by
  have hsafe : Safe (fun _ => some 0) (fun _ => True) 0 (bannerProg 1 0) := by
    have hline : Safe (fun _ => some 0) (fun _ => True) 0 (bannerLine 0) := by
      refine .read trivial (Or.inr rfl) fun x => ?_
      split
      · exact .read trivial (Or.inr rfl) fun _ => .read trivial (Or.inr rfl) fun _ => .write trivial rfl .done
      · exact .done
    refine .write trivial rfl (.write trivial rfl (.write trivial rfl (.write trivial rfl (.write trivial rfl
      (.write trivial rfl (.read trivial (Or.inr rfl) fun x => ?_))))))
    split
    · exact .write trivial rfl hline
    · exact hline
  have inv := OneInv.reach (reg := banner 1) (alloc := fun _ => True) (p := bannerProg 1 0) rfl
    (fun i hi => by
      have : i = 0 := by simpa [banner] using hi
      subst this; rfl) hsafe hs
  refine ⟨fun hf => ?_, fun hf => inv.progress rfl (fun k i _ hi => ⟨0, by omega, ?_⟩) hf⟩
  · rw [inv.final rfl hf]
    rfl
  · simpa [banner, ownThread] using hi

/-- C61: the programs print as claimed in all executions exactly if there is one thread. -/
theorem C61_fortran_threads_iff (T : Nat) (hT : 1 ≤ T) :
    (∀ s, PReach (banner T) T ownThread (fun _ => 0) s → s.Final (banner T) T →
      said T s.mem = (1, (T : Int)) :: List.replicate (T - 1) (0, 0)) ↔ T = 1 := by
  constructor
  · intro h
    by_contra h1
    obtain ⟨⟨s, hs, hf, e⟩, _⟩ := C61_fortran_threads_fails T (by omega)
    have := h s hs hf
    rw [e, show T = (T - 1) + 1 by omega, List.replicate_succ] at this
    simp at this
  · rintro rfl s hs hf
    exact (C61_fortran_threads_partial _ s hs).1 hf

/-- What is left of an iteration once the thread has assigned to `numThreads`, if all threads assign 1 or `T` to it. -/
inductive BannerLater (T : Nat) : Prog BannerLoc Int → Prop where
  | done : BannerLater T .done
  | readNum {k : Int → Prog BannerLoc Int} (h : ∀ x : Int, x = 1 ∨ x = T → BannerLater T (k x)) :
    BannerLater T (.read .numThreads k)
  | read {l : BannerLoc} {k : Int → Prog BannerLoc Int} (h : ∀ x, BannerLater T (k x)) : BannerLater T (.read l k)
  | writeNum {l : BannerLoc} {x : Int} {k : Prog BannerLoc Int} (hx : x = 1 ∨ x = T) (h : BannerLater T k) :
    BannerLater T (.write l x k)
  | writeId {x : Int} {k : Prog BannerLoc Int} (h : BannerLater T k) : BannerLater T (.write .threadId x k)

theorem bannerLine_later (T t : Nat) : BannerLater T (bannerLine t) := by
  refine .read fun id => ?_
  split
  · exact .readNum fun n hn => .read fun _ => .writeNum hn .done
  · exact .done

theorem bannerProg_later (T t : Nat) : ∃ k, bannerProg T t = .write .numThreads 1 k ∧ BannerLater T k := by
  refine ⟨_, rfl, .writeNum (.inl rfl) (.writeId (.writeNum (.inr rfl) (.writeNum (.inr rfl) (.writeId (.read fun id => ?_)))))⟩
  split
  · exact .writeNum (.inl rfl) (bannerLine_later T t)
  · exact bannerLine_later T t

/-- C61: for every number of threads, in every state of every execution, whatever the memory held before, each number printed is 1
or the number of threads; what was in the variables before is never printed. -/
theorem C61_fortran_number_printed (T : Nat) (m : Mem BannerLoc Int) (s : PState BannerLoc Int)
    (hs : PReach (banner T) T ownThread m s) (t : Nat) :
    (s.mem (.line t) = m (.line t) ∨ s.mem (.line t) = 1 ∨ s.mem (.line t) = T) := by
  suffices H : (∀ t, s.mem (.line t) = m (.line t) ∨ s.mem (.line t) = 1 ∨ s.mem (.line t) = T) ∧
      ∀ t i p, s.cur t = some (i, p) → p = bannerProg T i ∨
        (BannerLater T p ∧ (s.mem .numThreads = 1 ∨ s.mem .numThreads = T)) from H.1 t
  clear t
  induction hs with
  | init => exact ⟨fun _ => .inl rfl, fun t i p h => by simp [PState.init] at h⟩
  | @step s s' _ hst ih =>
    obtain ⟨hl, hc⟩ := ih
    cases hst with
    | take t i ht hk hc0 hi hs0 hm =>
      refine ⟨hl, fun t' i' p hp => ?_⟩
      by_cases e : t' = t
      · simp only [updAt, e, if_true, Option.some.injEq, Prod.mk.injEq] at hp
        exact .inl (by rw [← hp.2, ← hp.1]; rfl)
      · simp only [updAt, e, if_false] at hp
        exact hc t' i' p hp
    | read t i l k ht hcur =>
      refine ⟨hl, fun t' i' p hp => ?_⟩
      by_cases e : t' = t
      · simp only [updAt, e, if_true, Option.some.injEq, Prod.mk.injEq] at hp
        obtain ⟨_, rfl⟩ := hp
        rcases hc t i _ hcur with h | ⟨h, hn⟩
        · cases h
        · refine .inr ⟨?_, hn⟩
          cases h with
          | readNum h => exact h _ hn
          | read h => exact h _
      · simp only [updAt, e, if_false] at hp
        exact hc t' i' p hp
    | write t i l x k ht hcur =>
      have hx : BannerLater T k ∧ ((x = 1 ∨ x = T) ∨ l = .threadId) ∧ (l = .numThreads ∨ (s.mem .numThreads = 1 ∨ s.mem .numThreads = T)) := by
        rcases hc t i _ hcur with h | ⟨h, hn⟩
        · obtain ⟨k', e, hk'⟩ := bannerProg_later T i
          rw [e] at h
          injection h with h1 h2 h3
          subst h1 h2 h3
          exact ⟨hk', .inl (.inl rfl), .inl rfl⟩
        · cases h with
          | writeNum hx h => exact ⟨h, .inl hx, .inr hn⟩
          | writeId h => exact ⟨h, .inr rfl, .inr hn⟩
      obtain ⟨hk, hx1, hx2⟩ := hx
      have hnum : (s.mem.set l x) .numThreads = 1 ∨ (s.mem.set l x) .numThreads = T ∨
          (l ≠ .numThreads ∧ (s.mem.set l x) .numThreads = s.mem .numThreads) := by
        by_cases e : l = .numThreads
        · subst e
          rcases hx1 with h | h
          · simp only [Mem.set, if_true]; exact h.imp id .inl
          · cases h
        · exact .inr (.inr ⟨e, by simp [Mem.set, Ne.symm e]⟩)
      refine ⟨fun t' => ?_, fun t' i' p hp => ?_⟩
      · by_cases e : l = .line t'
        · subst e
          rcases hx1 with h | h
          · simp only [Mem.set, if_true]; exact .inr h
          · cases h
        · simpa [Mem.set, Ne.symm e] using hl t'
      · by_cases e : t' = t
        · simp only [updAt, e, if_true, Option.some.injEq, Prod.mk.injEq] at hp
          obtain ⟨_, rfl⟩ := hp
          refine .inr ⟨hk, ?_⟩
          rcases hnum with h | h | ⟨hne, h⟩
          · exact .inl h
          · exact .inr h
          · have := hx2.resolve_left hne
            rw [← h] at this
            exact this
        · simp only [updAt, e, if_false] at hp
          rcases hc t' i' p hp with h | ⟨h, hn⟩
          · exact .inl h
          · refine .inr ⟨h, ?_⟩
            rcases hnum with h | h | ⟨_, h⟩
            · exact .inl h
            · exact .inr h
            · rw [← h] at hn
              exact hn
    | finish t i ht hcur =>
      refine ⟨hl, fun t' i' p hp => ?_⟩
      by_cases e : t' = t
      · simp [updAt, e] at hp
      · simp only [updAt, e, if_false] at hp
        exact hc t' i' p hp
    | barrier t ht hk hs0 ha => exact ⟨hl, hc⟩

/-- C61: with three threads there is an execution that prints 1 and one that prints 3 three times. -/
example : ∃ s s' : PState BannerLoc Int, PReach (banner 3) 3 ownThread (fun _ => 0) s ∧
    PReach (banner 3) 3 ownThread (fun _ => 0) s' ∧
    said 3 s.mem = [(1, 1), (0, 0), (0, 0)] ∧ said 3 s'.mem = [(1, 3), (1, 3), (1, 3)] := by
  obtain ⟨_, ⟨s', h1, _, h2⟩, ⟨s, h3, _, h4⟩⟩ := C61_fortran_threads_fails 3 (by omega)
  exact ⟨s, s', h3, h1, h4, h2⟩

end Fidi
