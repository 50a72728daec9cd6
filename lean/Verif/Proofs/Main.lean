import Verif.Spec.Main
/-
  Invariants of the whole program of Model/Main.lean.
-/
namespace Rodb

open Spec

/-- The statuses a server can have after it had another one. -/
def ServerStatus.later (a b : ServerStatus) : Prop := a = b ∨ (a = .serving ∧ (b = .closed ∨ b = .failed))

/-- One step changes the status of a server only from serving to something else. -/
theorem ProgramStep.later {c : ProgramSetup} {s t : ProgramRun} {e : ProgramEvent} (h : ProgramStep c s e t) (i : Nat) (p : Protocol) :
    (s.server i p).status.later (t.server i p).status := by
  cases h <;> simp only [ProgramRun.update, ServerStatus.later] <;> try (left; trivial)
  all_goals
    split
    · rename_i hc
      obtain ⟨rfl, rfl⟩ := hc
      simp_all [ServerRun.shutdown] <;> grind
    · simp

theorem ProgramStep.stopped_mono {c : ProgramSetup} {s t : ProgramRun} {e : ProgramEvent} (h : ProgramStep c s e t) {i : Nat} {p : Protocol}
    (hs : (s.server i p).status ≠ .serving) : (t.server i p).status = (s.server i p).status := by
  rcases h.later i p with h | ⟨h, _⟩
  · exact h.symm
  · exact absurd h hs

theorem stopped_step {c : ProgramSetup} {s t : ProgramRun} {e : ProgramEvent} (h : ProgramStep c s e t) {i : Nat} (hs : s.stopped i) :
    t.stopped i := fun p => by rw [h.stopped_mono (hs p)]; exact hs p

theorem failed_step {c : ProgramSetup} {s t : ProgramRun} {e : ProgramEvent} (h : ProgramStep c s e t) {i : Nat} (hs : s.stopped i) :
    t.failed i ↔ s.failed i := by
  simp only [ProgramRun.failed]
  constructor
  · rintro ⟨p, hp⟩; exact ⟨p, by rw [← h.stopped_mono (hs p)]; exact hp⟩
  · rintro ⟨p, hp⟩; exact ⟨p, by rw [h.stopped_mono (hs p)]; exact hp⟩

theorem failed_mono {c : ProgramSetup} {s t : ProgramRun} {e : ProgramEvent} (h : ProgramStep c s e t) {i : Nat} {p : Protocol}
    (hf : (s.server i p).status = .failed) : (t.server i p).status = .failed := by
  rw [h.stopped_mono (by simp [hf])]; exact hf

/-- What is known about the main goroutine. -/
def MainInv (c : ProgramSetup) (s : ProgramRun) : Prop :=
  match s.main with
  | .waiting k => k ≤ c.waitOrder.length ∧ ∀ i ∈ c.waitOrder.take k, s.stopped i ∧ ¬ s.failed i
  | .closing => ∀ i ∈ c.waitOrder, s.stopped i ∧ ¬ s.failed i
  | .exited 0 => ∀ i ∈ c.waitOrder, s.stopped i ∧ ¬ s.failed i
  | .exited x => x = 1 ∧ ∃ i ∈ c.waitOrder, s.failed i

/-- What is known about the goroutine that closes the services. -/
def CloserInv (c : ProgramSetup) (s : ProgramRun) : Prop :=
  match s.closer with
  | .idle => True
  | .shutting k p called => k ≤ c.closeOrder.length ∧ (p = .https ∨ called = true → k < c.closeOrder.length) ∧
      (∀ i ∈ c.closeOrder.take k, s.stopped i) ∧
      ∀ i, c.closeOrder[k]? = some i →
        (p = .https → (s.server i .http).status ≠ .serving) ∧ (called = true → (s.server i p).status ≠ .serving)
  | .waiting k => k < c.closeOrder.length ∧ (∀ i ∈ c.closeOrder.take (k + 1), s.stopped i)
  | .ended => (∀ i ∈ c.closeOrder, s.stopped i) ∨ (SomeServerFailed s ∧ ∃ k, 0 < k ∧ ∀ i ∈ c.closeOrder.take k, s.stopped i)

theorem take_getElem?_succ {l : List Nat} {k i : Nat} (h : l[k]? = some i) : l.take (k + 1) = l.take k ++ [i] := by
  rw [List.take_add_one, h]; rfl

theorem lt_of_getElem?_some {l : List Nat} {k i : Nat} (h : l[k]? = some i) : k < l.length := by
  rw [List.getElem?_eq_some_iff] at h; exact h.1

theorem mainInv_keep {c : ProgramSetup} {s t : ProgramRun} {e : ProgramEvent} (h : ProgramStep c s e t) (hm : t.main = s.main)
    (hi : MainInv c s) : MainInv c t := by
  have key : ∀ i, s.stopped i ∧ ¬ s.failed i → t.stopped i ∧ ¬ t.failed i :=
    fun i hh => ⟨stopped_step h hh.1, by rw [failed_step h hh.1]; exact hh.2⟩
  simp only [MainInv, hm] at hi ⊢
  split
  · rename_i k hk
    rw [hk] at hi
    exact ⟨hi.1, fun i hmem => key i (hi.2 i hmem)⟩
  · rename_i hk
    rw [hk] at hi
    exact fun i hmem => key i (hi i hmem)
  · rename_i hk
    rw [hk] at hi
    exact fun i hmem => key i (hi i hmem)
  · rename_i x hx hk
    rw [hk] at hi
    split at hi
    · simp_all
    · simp_all
    · simp_all
    · rename_i y hy hyk
      cases hyk
      obtain ⟨h1, i, hmem, p, hp⟩ := hi
      exact ⟨h1, i, hmem, p, failed_mono h hp⟩

theorem mainInv_step {c : ProgramSetup} {s t : ProgramRun} {e : ProgramEvent} (h : ProgramStep c s e t) (hi : MainInv c s) : MainInv c t := by
  have hstep := h
  cases h with
  | wait hm hk hs hf =>
    rename_i k i
    simp only [MainInv, hm] at hi
    refine ⟨lt_of_getElem?_some hk, ?_⟩
    rw [take_getElem?_succ hk]
    intro j hj
    rcases List.mem_append.1 hj with hj | hj
    · exact hi.2 j hj
    · rw [List.mem_singleton] at hj
      subst hj
      exact ⟨hs, hf⟩
  | abort hm hk hs hf =>
    rename_i k i
    exact ⟨rfl, i, List.mem_of_getElem? hk, hf⟩
  | leave hm hk =>
    rename_i k
    simp only [MainInv, hm] at hi
    have : c.waitOrder.length ≤ k := List.getElem?_eq_none_iff.1 hk
    rw [List.take_of_length_le this] at hi
    exact hi.2
  | exit hm =>
    simp only [MainInv, hm] at hi
    exact hi
  | _ => exact mainInv_keep hstep rfl hi

theorem closerInv_keep {c : ProgramSetup} {s t : ProgramRun} {e : ProgramEvent} (h : ProgramStep c s e t) (hm : t.closer = s.closer)
    (hi : CloserInv c s) : CloserInv c t := by
  have key : ∀ i p, (s.server i p).status ≠ .serving → (t.server i p).status ≠ .serving :=
    fun i p hh => by rw [h.stopped_mono hh]; exact hh
  simp only [CloserInv, hm] at hi ⊢
  split <;> rename_i hk <;> simp only [hk] at hi
  · trivial
  · exact ⟨hi.1, hi.2.1, fun i hmem => stopped_step h (hi.2.2.1 i hmem), fun i hio => ⟨fun hp => key _ _ ((hi.2.2.2 i hio).1 hp),
      fun hp => key _ _ ((hi.2.2.2 i hio).2 hp)⟩⟩
  · exact ⟨hi.1, fun i hmem => stopped_step h (hi.2 i hmem)⟩
  · rcases hi with hi | ⟨⟨i, p, hf⟩, k, hk, hi⟩
    · exact Or.inl (fun i hmem => stopped_step h (hi i hmem))
    · exact Or.inr ⟨⟨i, p, failed_mono h hf⟩, k, hk, fun i hmem => stopped_step h (hi i hmem)⟩

theorem closerInv_step {c : ProgramSetup} {s t : ProgramRun} {e : ProgramEvent} (h : ProgramStep c s e t) (hi : CloserInv c s) :
    CloserInv c t := by
  have hstep := h
  cases h with
  | signal hm hk => simp [CloserInv]
  | call hm hk ho =>
    rename_i k i p
    simp only [CloserInv, hk] at hi
    refine ⟨hi.1, fun _ => lt_of_getElem?_some ho, fun j hj => stopped_step hstep (hi.2.2.1 j hj), fun j hj => ?_⟩
    obtain rfl : i = j := by rw [ho] at hj; exact Option.some.inj hj
    refine ⟨fun hp => ?_, fun _ => ?_⟩
    · have := (hi.2.2.2 i ho).1 hp
      rw [hstep.stopped_mono this]
      exact this
    · simp only [ProgramRun.update, ServerRun.shutdown, and_self, if_true]
      split <;> simp_all
  | nextHttps hm hk ho hf =>
    rename_i k i
    simp only [CloserInv, hk] at hi
    refine ⟨hi.1, fun _ => lt_of_getElem?_some ho, hi.2.2.1, fun j hj => ⟨fun _ => (hi.2.2.2 j hj).2 trivial, fun h => by cases h⟩⟩
  | nextWait hm hk ho hf =>
    rename_i k i
    simp only [CloserInv, hk] at hi
    refine ⟨lt_of_getElem?_some ho, ?_⟩
    rw [take_getElem?_succ ho]
    intro j hj
    rcases List.mem_append.1 hj with hj | hj
    · exact hi.2.2.1 j hj
    · rw [List.mem_singleton] at hj
      subst hj
      intro p
      cases p
      · exact (hi.2.2.2 _ ho).1 trivial
      · exact (hi.2.2.2 _ ho).2 trivial
  | nextService hm hk ho hs hf =>
    rename_i k i
    simp only [CloserInv, hk] at hi
    exact ⟨hi.1, fun h => by simp at h, hi.2, fun j _ => ⟨fun h => (by cases h), fun h => (by cases h)⟩⟩
  | giveUp hm hk ho hs hf =>
    rename_i k i
    simp only [CloserInv, hk] at hi
    obtain ⟨p, hp⟩ := hf
    exact Or.inr ⟨⟨i, p, hp⟩, k + 1, Nat.succ_pos k, hi.2⟩
  | closed hm hk ho =>
    rename_i k
    simp only [CloserInv, hk] at hi
    have : c.closeOrder.length ≤ k := List.getElem?_eq_none_iff.1 ho
    rw [List.take_of_length_le this] at hi
    exact Or.inl hi.2.2.1
  | _ => exact closerInv_keep hstep rfl hi

/-- No server outside the services is ever there. -/
def OutsideInv (c : ProgramSetup) (s : ProgramRun) : Prop := ∀ i p, c.services ≤ i → (s.server i p).status = .absent

theorem outsideInv_step {c : ProgramSetup} {s t : ProgramRun} {e : ProgramEvent} (h : ProgramStep c s e t) (hi : OutsideInv c s) :
    OutsideInv c t := fun i p hle => by
  have h0 := hi i p hle
  rw [h.stopped_mono (by simp [h0])]; exact h0

structure RunInv (c : ProgramSetup) (s : ProgramRun) : Prop where
  main : MainInv c s
  closer : CloserInv c s
  outside : OutsideInv c s

theorem runInv_started (c : ProgramSetup) : RunInv c (ProgramRun.started c) :=
  ⟨by simp [MainInv, ProgramRun.started], by simp [CloserInv, ProgramRun.started],
   fun i p h => by simp [ProgramRun.started, Nat.not_lt.2 h]⟩

theorem runInv_step {c : ProgramSetup} {s t : ProgramRun} {e : ProgramEvent} (h : ProgramStep c s e t) (hi : RunInv c s) : RunInv c t :=
  ⟨mainInv_step h hi.main, closerInv_step h hi.closer, outsideInv_step h hi.outside⟩

theorem runInv_path {c : ProgramSetup} {s t : ProgramRun} {es : List ProgramEvent} (h : ProgramPath c s es t) (hi : RunInv c s) : RunInv c t := by
  induction h with
  | nil => exact hi
  | snoc _ hstep ih => exact runInv_step hstep ih

theorem runInv_comes {c : ProgramSetup} {s : ProgramRun} (h : Spec.Comes c s) : RunInv c s := by
  obtain ⟨es, h⟩ := h
  exact runInv_path h (runInv_started c)

/-- How many steps the goroutine that closes the services has still to do, at most. -/
def closerLeft (c : ProgramSetup) : CloserRun → Nat
  | .idle => 0
  | .shutting k .http false => 5 * (c.closeOrder.length - k) + 1
  | .shutting k .http true => 5 * (c.closeOrder.length - k)
  | .shutting k .https false => 5 * (c.closeOrder.length - k) - 1
  | .shutting k .https true => 5 * (c.closeOrder.length - k) - 2
  | .waiting k => 5 * (c.closeOrder.length - k) - 3
  | .ended => 0

/-- How many steps the main goroutine has still to do, at most. -/
def mainLeft (c : ProgramSetup) : MainRun → Nat
  | .waiting k => c.waitOrder.length - k + 2
  | .closing => 1
  | .exited _ => 0

/-- The requests that are being answered by the first `n` services. -/
def inFlights (s : ProgramRun) : Nat → Nat
  | 0 => 0
  | n + 1 => inFlights s n + (s.server n .http).inFlight + (s.server n .https).inFlight

theorem inFlights_congr {s t : ProgramRun} {n : Nat} (h : ∀ i p, i < n → (t.server i p).inFlight = (s.server i p).inFlight) :
    inFlights t n = inFlights s n := by
  induction n with
  | zero => rfl
  | succ n ih =>
    rw [inFlights, inFlights, ih (fun i p hi => h i p (Nat.lt_succ_of_lt hi)), h n _ (Nat.lt_succ_self n), h n _ (Nat.lt_succ_self n)]

theorem inFlights_answer {s : ProgramRun} {n i : Nat} {p : Protocol} (hi : i < n) (h0 : (s.server i p).inFlight ≠ 0) :
    inFlights (s.update i p (fun r => { r with inFlight := r.inFlight - 1 })) n + 1 = inFlights s n := by
  induction n with
  | zero => omega
  | succ n ih =>
    rw [inFlights, inFlights]
    by_cases hin : i = n
    · subst hin
      rw [inFlights_congr (s := s) (n := i) (fun j q hj => by simp [ProgramRun.update, Nat.ne_of_lt hj])]
      cases p <;> simp [ProgramRun.update] <;> omega
    · have := ih (by omega)
      simp only [ProgramRun.update] at this ⊢
      simp only [Ne.symm hin, false_and, if_false]
      omega

/-- A bound for the number of steps the program can still do by itself. -/
def stepsLeft (c : ProgramSetup) (s : ProgramRun) : Nat := inFlights s c.services + closerLeft c s.closer + mainLeft c s.main

theorem stepsLeft_step {c : ProgramSetup} {s t : ProgramRun} {e : ProgramEvent} (hi : RunInv c s) (h : ProgramStep c s e t)
    (he : e = .answer ∨ e = .internal) : stepsLeft c t < stepsLeft c s := by
  have hmain := hi.main
  have hclose := hi.closer
  cases h with
  | request | failure | signal => simp at he
  | answer hm hi h0 =>
    have := inFlights_answer hi h0
    simp only [stepsLeft]
    simp only [ProgramRun.update] at this ⊢
    omega
  | call hm hk ho =>
    rename_i k i p
    have hlt := lt_of_getElem?_some ho
    have : inFlights { s.update i p ServerRun.shutdown with closer := .shutting k p true } c.services = inFlights s c.services :=
      inFlights_congr (fun j q _ => by simp only [ProgramRun.update, ServerRun.shutdown]; split <;> rfl)
    simp only [stepsLeft, this, hk]
    cases p <;> simp only [closerLeft, ProgramRun.update] <;> omega
  | nextHttps hm hk ho hf =>
    have hlt := lt_of_getElem?_some ho
    have : ∀ x, inFlights { s with closer := x } c.services = inFlights s c.services := fun x => inFlights_congr (fun _ _ _ => rfl)
    simp only [stepsLeft, this, hk, closerLeft]; omega
  | nextWait hm hk ho hf =>
    have hlt := lt_of_getElem?_some ho
    have : ∀ x, inFlights { s with closer := x } c.services = inFlights s c.services := fun x => inFlights_congr (fun _ _ _ => rfl)
    simp only [stepsLeft, this, hk, closerLeft]; omega
  | nextService hm hk ho hs hf =>
    have hlt := lt_of_getElem?_some ho
    have : ∀ x, inFlights { s with closer := x } c.services = inFlights s c.services := fun x => inFlights_congr (fun _ _ _ => rfl)
    simp only [stepsLeft, this, hk, closerLeft]; omega
  | giveUp hm hk ho hs hf =>
    have hlt := lt_of_getElem?_some ho
    have : ∀ x, inFlights { s with closer := x } c.services = inFlights s c.services := fun x => inFlights_congr (fun _ _ _ => rfl)
    simp only [stepsLeft, this, hk, closerLeft]; omega
  | closed hm hk ho =>
    have : ∀ x, inFlights { s with closer := x } c.services = inFlights s c.services := fun x => inFlights_congr (fun _ _ _ => rfl)
    simp only [stepsLeft, this, hk, closerLeft]; omega
  | wait hm hk hs hf =>
    have hlt := lt_of_getElem?_some hk
    have : ∀ x, inFlights { s with main := x } c.services = inFlights s c.services := fun x => inFlights_congr (fun _ _ _ => rfl)
    simp only [stepsLeft, this, hm, mainLeft]; omega
  | abort hm hk hs hf =>
    have : ∀ x, inFlights { s with main := x } c.services = inFlights s c.services := fun x => inFlights_congr (fun _ _ _ => rfl)
    simp only [stepsLeft, this, hm, mainLeft]; omega
  | leave hm hk =>
    have : ∀ x, inFlights { s with main := x } c.services = inFlights s c.services := fun x => inFlights_congr (fun _ _ _ => rfl)
    simp only [stepsLeft, this, hm, mainLeft]; omega
  | exit hm =>
    have : ∀ x, inFlights { s with main := x } c.services = inFlights s c.services := fun x => inFlights_congr (fun _ _ _ => rfl)
    simp only [stepsLeft, this, hm, mainLeft]; omega

theorem stepsLeft_path {c : ProgramSetup} {s t : ProgramRun} {es : List ProgramEvent} (hi : RunInv c s) (h : ProgramPath c s es t)
    (he : Spec.FromInside es) : es.length + stepsLeft c t ≤ stepsLeft c s := by
  induction h with
  | nil => simp
  | snoc hp hstep ih =>
    have h1 := ih (fun e hmem => he e (List.mem_append_left _ hmem))
    have h2 := stepsLeft_step (runInv_path hp hi) hstep (he _ (by simp))
    simp only [List.length_append, List.length_singleton]
    omega

/-- Where the program cannot go on by itself, the process is gone, unless a service is left serving. -/
theorem stuck_exited {c : ProgramSetup} (hc : Spec.GoodSetup c) {t : ProgramRun} (hi : RunInv c t) (hsig : Spec.Signalled t)
    (hno : ¬ Spec.SomeServerFailed t ∨ c.services = 1)
    (hstuck : ∀ e u, (e = .answer ∨ e = .internal) → ¬ ProgramStep c t e u) : ∃ x, t.main = .exited x := by
  open Classical in
  have hclose := hi.closer
  have hmain := hi.main
  cases hm : t.main with
  | exited x => exact ⟨x, rfl⟩
  | closing => exact absurd (.exit hm) (hstuck .internal _ (.inr rfl))
  | waiting k =>
    exfalso
    have hne : ∀ x, t.main ≠ .exited x := fun x h => by rw [hm] at h; cases h
    have hflight : ∀ i p, i < c.services → (t.server i p).inFlight = 0 := fun i p hlt =>
      byContradiction (fun h0 => hstuck .answer _ (.inl rfl) (.answer hne hlt h0))
    have hcloseLt : ∀ {k i : Nat}, c.closeOrder[k]? = some i → i < c.services := fun ho =>
      List.mem_range.1 (hc.closeOrder.mem_iff.1 (List.mem_of_getElem? ho))
    -- the goroutine that closes has ended
    have hended : t.closer = .ended := by
      cases hcl : t.closer with
      | ended => rfl
      | idle => exact absurd hcl hsig
      | waiting j =>
        simp only [CloserInv, hcl] at hclose
        obtain ⟨hlt, hstop⟩ := hclose
        have ho := List.getElem?_eq_getElem hlt
        have hs : t.stopped c.closeOrder[j] := hstop _ (by rw [take_getElem?_succ ho]; exact List.mem_append_right _ (List.mem_singleton.2 rfl))
        by_cases hf : t.failed c.closeOrder[j]
        · exact absurd (.giveUp hne hcl ho hs hf) (hstuck .internal _ (.inr rfl))
        · exact absurd (.nextService hne hcl ho hs hf) (hstuck .internal _ (.inr rfl))
      | shutting j p called =>
        simp only [CloserInv, hcl] at hclose
        cases called with
        | false =>
          cases ho : c.closeOrder[j]? with
          | some i => exact absurd (.call hne hcl ho) (hstuck .internal _ (.inr rfl))
          | none =>
            cases p with
            | http => exact absurd (.closed hne hcl ho) (hstuck .internal _ (.inr rfl))
            | https =>
              have := hclose.2.1 (.inl rfl)
              rw [List.getElem?_eq_none_iff] at ho
              omega
        | true =>
          have ho := List.getElem?_eq_getElem (hclose.2.1 (.inr rfl))
          cases p with
          | http => exact absurd (.nextHttps hne hcl ho (hflight _ _ (hcloseLt ho))) (hstuck .internal _ (.inr rfl))
          | https => exact absurd (.nextWait hne hcl ho (hflight _ _ (hcloseLt ho))) (hstuck .internal _ (.inr rfl))
    simp only [CloserInv, hended] at hclose
    have hall : ∀ i, i < c.services → t.stopped i := by
      intro i hlt
      rcases hclose with h | ⟨hf, j, hj, h⟩
      · exact h i (hc.closeOrder.mem_iff.2 (List.mem_range.2 hlt))
      · rcases hno with hno | hno
        · exact absurd hf hno
        · refine h i ?_
          have hlen : c.closeOrder.length = 1 := by rw [hc.closeOrder.length_eq, List.length_range, hno]
          rw [List.take_of_length_le (by omega)]
          exact hc.closeOrder.mem_iff.2 (List.mem_range.2 hlt)
    cases ho : c.waitOrder[k]? with
    | none => exact absurd (.leave hm ho) (hstuck .internal _ (.inr rfl))
    | some i =>
      have hs := hall i (List.mem_range.1 (hc.waitOrder.mem_iff.1 (List.mem_of_getElem? ho)))
      by_cases hf : t.failed i
      · exact absurd (.abort hm ho hs hf) (hstuck .internal _ (.inr rfl))
      · exact absurd (.wait hm ho hs hf) (hstuck .internal _ (.inr rfl))

/-- Where the program cannot go on by itself and every server has stopped, the process is gone. -/
theorem stuck_stopped {c : ProgramSetup} (hc : Spec.GoodSetup c) {t : ProgramRun} (hall : ∀ i, i < c.services → t.stopped i)
    (hstuck : ∀ e u, (e = .answer ∨ e = .internal) → ¬ ProgramStep c t e u) : ∃ x, t.main = .exited x := by
  cases hm : t.main with
  | exited x => exact ⟨x, rfl⟩
  | closing => exact absurd (.exit hm) (hstuck .internal _ (.inr rfl))
  | waiting k =>
    exfalso
    cases ho : c.waitOrder[k]? with
    | none => exact absurd (.leave hm ho) (hstuck .internal _ (.inr rfl))
    | some i =>
      have hs := hall i (List.mem_range.1 (hc.waitOrder.mem_iff.1 (List.mem_of_getElem? ho)))
      by_cases hf : t.failed i
      · exact absurd (.abort hm ho hs hf) (hstuck .internal _ (.inr rfl))
      · exact absurd (.wait hm ho hs hf) (hstuck .internal _ (.inr rfl))

theorem stopped_path {c : ProgramSetup} {s t : ProgramRun} {es : List ProgramEvent} (h : ProgramPath c s es t) {i : Nat} (hs : s.stopped i) :
    t.stopped i := by
  induction h with
  | nil => exact hs
  | snoc _ hstep ih => exact stopped_step hstep ih

/-- Steps of the program itself do not make servers fail. -/
theorem inside_failed {c : ProgramSetup} {s t : ProgramRun} {es : List ProgramEvent} (h : ProgramPath c s es t) (he : Spec.FromInside es) :
    Spec.SomeServerFailed t ↔ Spec.SomeServerFailed s := by
  induction h with
  | nil => rfl
  | snoc hp hstep ih =>
    rw [← ih (fun e hmem => he e (List.mem_append_left _ hmem))]
    have he' := he _ (List.mem_append_right _ (List.mem_singleton.2 rfl))
    constructor
    · rintro ⟨i, p, hf⟩
      refine ⟨i, p, ?_⟩
      cases hstep <;> first | exact hf | simp at he' | skip
      all_goals
        simp only [ProgramRun.update, ServerRun.shutdown] at hf
        split at hf
        · first | exact hf | (simp only at hf; split at hf <;> first | exact hf | cases hf)
        · exact hf
    · rintro ⟨i, p, hf⟩
      exact ⟨i, p, failed_mono hstep hf⟩

theorem signalled_step {c : ProgramSetup} {s t : ProgramRun} {e : ProgramEvent} (h : ProgramStep c s e t) (hs : Spec.Signalled s) :
    Spec.Signalled t := by
  unfold Spec.Signalled at *
  cases h <;> simp_all [ProgramRun.update]

theorem signalled_path {c : ProgramSetup} {s t : ProgramRun} {es : List ProgramEvent} (h : ProgramPath c s es t) (hs : Spec.Signalled s) :
    Spec.Signalled t := by
  induction h with
  | nil => exact hs
  | snoc _ hstep ih => exact signalled_step hstep ih

theorem ProgramPath.append {c : ProgramSetup} {s t u : ProgramRun} {es fs : List ProgramEvent} (h : ProgramPath c s es t)
    (h2 : ProgramPath c t fs u) : ProgramPath c s (es ++ fs) u := by
  induction h2 with
  | nil => rw [List.append_nil]; exact h
  | snoc _ hstep ih => rw [← List.append_assoc]; exact .snoc ih hstep

/-- The exit status tells whether a server failed. -/
theorem exit_status {c : ProgramSetup} (hc : Spec.GoodSetup c) {s : ProgramRun} (hi : RunInv c s) {x : Nat} (hx : s.main = .exited x) :
    (x = 0 ∧ ¬ Spec.SomeServerFailed s) ∨ (x = 1 ∧ Spec.SomeServerFailed s) := by
  have hmain := hi.main
  simp only [MainInv, hx] at hmain
  split at hmain
  · rename_i h; cases h
  · rename_i h; cases h
  · rename_i h
    cases h
    refine .inl ⟨rfl, ?_⟩
    rintro ⟨i, p, hf⟩
    by_cases hlt : i < c.services
    · exact (hmain i (hc.waitOrder.mem_iff.2 (List.mem_range.2 hlt))).2 ⟨p, hf⟩
    · rw [hi.outside i p (Nat.not_lt.1 hlt)] at hf
      cases hf
  · rename_i y hy h
    cases h
    obtain ⟨h1, i, _, p, hf⟩ := hmain
    exact .inr ⟨h1, i, p, hf⟩

end Rodb
