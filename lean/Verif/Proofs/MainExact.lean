import Verif.Spec.MainExact
import Verif.Proofs.Main
/-
  Lemmas for C95 and C96, exactly.
-/
namespace Rodb
open Spec

/-- Without the event that a server fails, none does. -/
theorem failed_back_step {c : ProgramSetup} {s t : ProgramRun} {e : ProgramEvent} (h : ProgramStep c s e t) (he : e ≠ .failure) {i : Nat} {p : Protocol}
    (hf : (t.server i p).status = .failed) : (s.server i p).status = .failed := by
  cases h with
  | failure _ _ => exact absurd rfl he
  | request _ _ | answer _ _ _ =>
    simp only [ProgramRun.update] at hf
    split at hf <;> exact hf
  | call _ _ _ =>
    simp only [ProgramRun.update, ServerRun.shutdown] at hf
    split at hf
    · simp only at hf
      split at hf
      · cases hf
      · exact hf
    · exact hf
  | _ => exact hf

theorem failed_back {c : ProgramSetup} {s t : ProgramRun} {es : List ProgramEvent} (h : ProgramPath c s es t) (he : ∀ e ∈ es, e ≠ .failure) {i : Nat} {p : Protocol}
    (hf : (t.server i p).status = .failed) : (s.server i p).status = .failed := by
  induction h with
  | nil => exact hf
  | snoc _ hstep ih =>
    exact ih (fun e hm => he e (List.mem_append_left _ hm)) (failed_back_step hstep (he _ (List.mem_append_right _ (.head _))) hf)

theorem failed_forth {c : ProgramSetup} {s t : ProgramRun} {es : List ProgramEvent} (h : ProgramPath c s es t) {i : Nat} {p : Protocol}
    (hf : (s.server i p).status = .failed) : (t.server i p).status = .failed := by
  induction h with
  | nil => exact hf
  | snoc _ hstep ih => exact failed_mono hstep ih

theorem stopped_forth {c : ProgramSetup} {s t : ProgramRun} {es : List ProgramEvent} (h : ProgramPath c s es t) {i : Nat} {p : Protocol}
    (hf : (s.server i p).status ≠ .serving) : (t.server i p).status ≠ .serving := by
  induction h with
  | nil => exact hf
  | snoc _ hstep ih => rw [hstep.stopped_mono ih]; exact ih

/-- A process that is gone with an error has noticed a failure. -/
def ExitInv (c : ProgramSetup) (s : ProgramRun) : Prop := ∀ x, s.main = .exited x → x ≠ 0 → Noticed c s

theorem exitInv_step {c : ProgramSetup} {s t : ProgramRun} {e : ProgramEvent} (hi : MainInv c s) (h : ProgramStep c s e t) : ExitInv c t := by
  intro x hx h0
  cases h with
  | abort hm hk hs hf =>
    rename_i k i
    simp only [MainInv, hm] at hi
    refine ⟨k, i, hk, hf, fun m hle j hj p => ?_⟩
    by_cases he : m = k
    · subst he
      rw [hk] at hj
      cases hj
      exact hs p
    · refine (hi.2 j ?_).1 p
      have hlt : m < c.waitOrder.length := lt_of_getElem?_some hj
      rw [List.getElem?_eq_getElem hlt] at hj
      cases hj
      exact List.mem_take_iff_getElem.2 ⟨m, by omega, rfl⟩
  | exit hm => cases hx; exact absurd rfl h0
  | wait _ _ _ _ => cases hx
  | leave _ _ => cases hx
  | request hne _ | answer hne _ _ | failure hne _ | signal hne _ | call hne _ _ | nextHttps hne _ _ _ | nextWait hne _ _ _ | nextService hne _ _ _ _ | giveUp hne _ _ _ _ | closed hne _ _ =>
    exact absurd hx (hne x)

theorem exitInv_path {c : ProgramSetup} {s t : ProgramRun} {es : List ProgramEvent} (h : ProgramPath c s es t) (hi : RunInv c s) (h0 : ExitInv c s) : ExitInv c t := by
  cases h with
  | nil => exact h0
  | snoc hp hstep => exact exitInv_step (runInv_path hp hi).main hstep

theorem exitInv_comes {c : ProgramSetup} {s : ProgramRun} (h : Comes c s) : ExitInv c s := by
  obtain ⟨es, h⟩ := h
  exact exitInv_path h (runInv_started c) (fun x hx => by cases hx)

/-- What is known of the services that were closed. -/
def ClosedInv (c : ProgramSetup) (s : ProgramRun) : Prop :=
  match s.closer with
  | .idle => True
  | .shutting k _ _ => ∀ m : Nat, m < k → ∀ i, c.closeOrder[m]? = some i → s.stopped i ∧ ¬ s.failed i
  | .waiting k => ∀ m : Nat, m < k → ∀ i, c.closeOrder[m]? = some i → s.stopped i ∧ ¬ s.failed i
  | .ended => (∀ m i : Nat, c.closeOrder[m]? = some i → s.stopped i) ∨
      ∃ k i : Nat, c.closeOrder[k]? = some i ∧ s.failed i ∧ ∀ m : Nat, m ≤ k → ∀ j, c.closeOrder[m]? = some j → s.stopped j

theorem closedInv_keep {c : ProgramSetup} {s t : ProgramRun} {e : ProgramEvent} (h : ProgramStep c s e t) (hm : t.closer = s.closer)
    (hi : ClosedInv c s) : ClosedInv c t := by
  have key : ∀ i, s.stopped i ∧ ¬ s.failed i → t.stopped i ∧ ¬ t.failed i :=
    fun i hh => ⟨stopped_step h hh.1, by rw [failed_step h hh.1]; exact hh.2⟩
  simp only [ClosedInv, hm] at hi ⊢
  split
  · trivial
  · rename_i hc
    rw [hc] at hi
    exact fun m hm i ho => key i (hi m hm i ho)
  · rename_i hc
    rw [hc] at hi
    exact fun m hm i ho => key i (hi m hm i ho)
  · rename_i hc
    rw [hc] at hi
    rcases hi with hi | ⟨k, i, h1, h2, h3⟩
    · exact .inl (fun m i ho => stopped_step h (hi m i ho))
    · obtain ⟨p, hp⟩ := h2
      exact .inr ⟨k, i, h1, ⟨p, failed_mono h hp⟩, fun m hle j ho => stopped_step h (h3 m hle j ho)⟩

theorem closedInv_step {c : ProgramSetup} {s t : ProgramRun} {e : ProgramEvent} (h : ProgramStep c s e t) (hi : ClosedInv c s) : ClosedInv c t := by
  have hstep := h
  have key : ∀ i, s.stopped i ∧ ¬ s.failed i → t.stopped i ∧ ¬ t.failed i :=
    fun i hh => ⟨stopped_step h hh.1, by rw [failed_step h hh.1]; exact hh.2⟩
  cases h with
  | signal hm hk => exact fun m hm => absurd hm (Nat.not_lt_zero _)
  | call hm hk ho =>
    simp only [ClosedInv, hk] at hi
    exact fun m hm i ho => key i (hi m hm i ho)
  | nextHttps hm hk ho h0 =>
    simp only [ClosedInv, hk] at hi
    exact fun m hm i ho => key i (hi m hm i ho)
  | nextWait hm hk ho h0 =>
    simp only [ClosedInv, hk] at hi
    exact fun m hm i ho => key i (hi m hm i ho)
  | nextService hm hk ho hs hf =>
    rename_i k i
    simp only [ClosedInv, hk] at hi
    intro m hlt j hj
    by_cases he : m = k
    · subst he
      rw [ho] at hj
      cases hj
      exact ⟨hs, hf⟩
    · exact key j (hi m (by omega) j hj)
  | giveUp hm hk ho hs hf =>
    rename_i k i
    simp only [ClosedInv, hk] at hi
    refine .inr ⟨k, i, ho, hf, fun m hle j hj => ?_⟩
    by_cases he : m = k
    · subst he
      rw [ho] at hj
      cases hj
      exact hs
    · exact (hi m (by omega) j hj).1
  | closed hm hk ho =>
    rename_i k
    simp only [ClosedInv, hk] at hi
    refine .inl (fun m j hj => (hi m ?_ j hj).1)
    rw [List.getElem?_eq_none_iff] at ho
    have := lt_of_getElem?_some hj
    omega
  | _ => exact closedInv_keep hstep rfl hi

theorem closedInv_path {c : ProgramSetup} {s t : ProgramRun} {es : List ProgramEvent} (h : ProgramPath c s es t) (hi : ClosedInv c s) : ClosedInv c t := by
  induction h with
  | nil => exact hi
  | snoc _ hstep ih => exact closedInv_step hstep ih

theorem closedInv_comes {c : ProgramSetup} {s : ProgramRun} (h : Comes c s) : ClosedInv c s := by
  obtain ⟨es, h⟩ := h
  exact closedInv_path h trivial

/-- Servers that stop without failing are those of services that are closed in turn. -/
theorem stopped_back {c : ProgramSetup} {s t : ProgramRun} {es : List ProgramEvent} (h : ProgramPath c s es t) (hi : ClosedInv c s) (he : ∀ e ∈ es, e ≠ .failure) {j : Nat} {p : Protocol}
    (hs : (t.server j p).status ≠ .serving) : (s.server j p).status ≠ .serving ∨ ClosedInTurn c s j := by
  induction h with
  | nil => exact .inl hs
  | snoc hp hstep ih =>
    have he' := fun e hm => he e (List.mem_append_left _ hm)
    have hci := closedInv_path hp hi
    cases hstep with
    | failure _ _ => exact absurd rfl (he _ (List.mem_append_right _ (.head _)))
    | request _ _ | answer _ _ _ =>
      refine ih he' ?_
      simp only [ProgramRun.update] at hs
      split at hs <;> exact hs
    | call _ hk ho =>
      rename_i t' k i q _
      simp only [ProgramRun.update] at hs
      split at hs
      · rename_i hc
        obtain ⟨rfl, rfl⟩ := hc
        simp only [ClosedInv, hk] at hci
        exact .inr ⟨k, ho, fun m hm i hi' p' hf => (hci m hm i hi').2 ⟨p', failed_forth hp hf⟩⟩
      · exact ih he' hs
    | _ => exact ih he' hs

/-- Without a signal they do not stop at all. -/
theorem idle_path {c : ProgramSetup} {s t : ProgramRun} {es : List ProgramEvent} (h : ProgramPath c s es t) (hi : s.closer = .idle) (he : ∀ e ∈ es, e ≠ .signal ∧ e ≠ .failure) :
    t.closer = .idle ∧ ∀ j p, (t.server j p).status ≠ .serving → (s.server j p).status ≠ .serving := by
  induction h with
  | nil => exact ⟨hi, fun _ _ h => h⟩
  | snoc hp hstep ih =>
    obtain ⟨h1, h2⟩ := ih (fun e hm => he e (List.mem_append_left _ hm))
    have hev := he _ (List.mem_append_right _ (.head _))
    cases hstep with
    | failure _ _ => exact absurd rfl hev.2
    | signal _ _ => exact absurd rfl hev.1
    | request _ _ | answer _ _ _ =>
      refine ⟨h1, fun j p hs => h2 j p ?_⟩
      simp only [ProgramRun.update] at hs
      split at hs <;> exact hs
    | call _ hk _ => rw [h1] at hk; cases hk
    | nextHttps _ hk _ _ => rw [h1] at hk; cases hk
    | nextWait _ hk _ _ => rw [h1] at hk; cases hk
    | nextService _ hk _ _ _ => rw [h1] at hk; cases hk
    | giveUp _ hk _ _ _ => rw [h1] at hk; cases hk
    | closed _ hk _ => rw [h1] at hk; cases hk
    | _ => exact ⟨h1, h2⟩

/-- Where the program cannot go on by itself and a failure can be noticed, the process is gone. -/
theorem stuck_noticed {c : ProgramSetup} {t : ProgramRun} (hi : RunInv c t) (hn : Noticed c t)
    (hstuck : ∀ e u, (e = .answer ∨ e = .internal) → ¬ ProgramStep c t e u) : ∃ x, t.main = .exited x := by
  cases hm : t.main with
  | exited x => exact ⟨x, rfl⟩
  | closing => exact absurd (.exit hm) (hstuck .internal _ (.inr rfl))
  | waiting k =>
    exfalso
    cases ho : c.waitOrder[k]? with
    | none => exact absurd (.leave hm ho) (hstuck .internal _ (.inr rfl))
    | some i =>
      obtain ⟨k', i', h1, h2, h3⟩ := hn
      have hmain := hi.main
      simp only [MainInv, hm] at hmain
      have hle : k ≤ k' := by
        refine Nat.le_of_not_lt (fun hlt => (hmain.2 i' ?_).2 h2)
        have hl := lt_of_getElem?_some h1
        rw [List.getElem?_eq_getElem hl] at h1
        cases h1
        exact List.mem_take_iff_getElem.2 ⟨k', by omega, rfl⟩
      have hs : t.stopped i := h3 k hle i ho
      by_cases hf : t.failed i
      · exact absurd (.abort hm ho hs hf) (hstuck .internal _ (.inr rfl))
      · exact absurd (.wait hm ho hs hf) (hstuck .internal _ (.inr rfl))

/-- Where the program cannot go on by itself after a signal, the goroutine that closes the services is gone, or the process is. -/
theorem stuck_closer {c : ProgramSetup} (hc : GoodSetup c) {t : ProgramRun} (hi : RunInv c t) (hsig : Signalled t)
    (hstuck : ∀ e u, (e = .answer ∨ e = .internal) → ¬ ProgramStep c t e u) : t.closer = .ended ∨ ∃ x, t.main = .exited x := by
  open Classical in
  by_cases hex : ∃ x, t.main = .exited x
  · exact .inr hex
  · left
    have hne : ∀ x, t.main ≠ .exited x := fun x h => hex ⟨x, h⟩
    have hclose := hi.closer
    have hflight : ∀ i p, i < c.services → (t.server i p).inFlight = 0 := fun i p hlt =>
      byContradiction (fun h0 => hstuck .answer _ (.inl rfl) (.answer hne hlt h0))
    have hcloseLt : ∀ {k i : Nat}, c.closeOrder[k]? = some i → i < c.services := fun ho =>
      List.mem_range.1 (hc.closeOrder.mem_iff.1 (List.mem_of_getElem? ho))
    cases hcl : t.closer with
    | ended => rfl
    | idle => exact absurd hcl hsig
    | waiting j =>
      simp only [CloserInv, hcl] at hclose
      obtain ⟨hlt, hstop⟩ := hclose
      have ho := List.getElem?_eq_getElem hlt
      have hs : t.stopped c.closeOrder[j] := hstop _ (by rw [take_getElem?_succ ho]; exact List.mem_append_right _ (List.mem_singleton.2 rfl))
      by_cases hf : t.failed c.closeOrder[j]
      · exact absurd (.giveUp hne hcl ho hs hf) (hstuck .internal _ (.inr rfl))
      · exact absurd (.nextService hne hcl ho hs hf) (hstuck .internal _ (.inr rfl))
    | shutting j p called =>
      simp only [CloserInv, hcl] at hclose
      cases called with
      | false =>
        cases ho : c.closeOrder[j]? with
        | some i => exact absurd (.call hne hcl ho) (hstuck .internal _ (.inr rfl))
        | none =>
          cases p with
          | http => exact absurd (.closed hne hcl ho) (hstuck .internal _ (.inr rfl))
          | https =>
            have := hclose.2.1 (.inl rfl)
            rw [List.getElem?_eq_none_iff] at ho
            omega
      | true =>
        have ho := List.getElem?_eq_getElem (hclose.2.1 (.inr rfl))
        cases p with
        | http => exact absurd (.nextHttps hne hcl ho (hflight _ _ (hcloseLt ho))) (hstuck .internal _ (.inr rfl))
        | https => exact absurd (.nextWait hne hcl ho (hflight _ _ (hcloseLt ho))) (hstuck .internal _ (.inr rfl))

end Rodb
