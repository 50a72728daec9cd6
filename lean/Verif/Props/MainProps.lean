import Verif.Proofs.Main
/-
  C94, C95 and C96: how the program ends.
-/
namespace Rodb

open Spec

/-- **C94** Whenever the process is gone, its exit status tells whether a server failed: it is 1 if one did and 0 if none did; there is no other. -/
theorem C94_exit_status {c : ProgramSetup} (hc : GoodSetup c) {s : ProgramRun} (h : Comes c s) {x : Nat} (hx : s.main = .exited x) :
    (x = 0 ∧ ¬ SomeServerFailed s) ∨ (x = 1 ∧ SomeServerFailed s) :=
  exit_status hc (runInv_comes h) hx

/-- **C95** (partial) Once every server has stopped, and one of them by an error of its own, the program ends with status 1, whatever requests are
still being answered. Missing: that one failed server is enough (`C95_false`). -/
theorem C95_failure_ends_partial {c : ProgramSetup} (hc : GoodSetup c) {s : ProgramRun} (h : Comes c s)
    (hstop : ∀ i p, (s.server i p).status ≠ .serving) (hf : SomeServerFailed s) : EndsWith c s 1 := by
  refine ⟨stepsLeft c s, fun es t hp he => ⟨?_, fun hstuck => ?_⟩⟩
  · have := stepsLeft_path (runInv_comes h) hp he
    omega
  · obtain ⟨x, hx⟩ := stuck_stopped hc (fun i _ => stopped_path hp (fun p => hstop i p)) hstuck
    rcases exit_status hc (runInv_path hp (runInv_comes h)) hx with ⟨_, hn⟩ | ⟨rfl, _⟩
    · exact absurd ((inside_failed hp he).2 hf) hn
    · exact hx

/-- **C96** (partial) After a signal the program ends by itself once the requests are answered, if no server has failed or there is only one
service; its exit status is 0 in the first case. Missing: several services of which one has a failed server (`C96_false`). -/
theorem C96_signal_ends_partial {c : ProgramSetup} (hc : GoodSetup c) {s : ProgramRun} (h : Comes c s) (hsig : Signalled s) :
    (¬ SomeServerFailed s → EndsWith c s 0) ∧ (SomeServerFailed s → c.services = 1 → EndsWith c s 1) := by
  have key : ∀ es t, ProgramPath c s es t → FromInside es → es.length ≤ stepsLeft c s := fun es t hp he => by
    have := stepsLeft_path (runInv_comes h) hp he
    omega
  refine ⟨fun hno => ⟨stepsLeft c s, fun es t hp he => ⟨key es t hp he, fun hstuck => ?_⟩⟩,
    fun hf hone => ⟨stepsLeft c s, fun es t hp he => ⟨key es t hp he, fun hstuck => ?_⟩⟩⟩
  · have hno' : ¬ SomeServerFailed t := fun hf => hno ((inside_failed hp he).1 hf)
    obtain ⟨x, hx⟩ := stuck_exited hc (runInv_path hp (runInv_comes h)) (signalled_path hp hsig) (.inl hno') hstuck
    rcases exit_status hc (runInv_path hp (runInv_comes h)) hx with ⟨rfl, _⟩ | ⟨_, hf⟩
    · exact hx
    · exact absurd hf hno'
  · have hf' : SomeServerFailed t := (inside_failed hp he).2 hf
    obtain ⟨x, hx⟩ := stuck_exited hc (runInv_path hp (runInv_comes h)) (signalled_path hp hsig) (.inr hone) hstuck
    rcases exit_status hc (runInv_path hp (runInv_comes h)) hx with ⟨_, hno⟩ | ⟨rfl, _⟩
    · exact absurd hf' hno
    · exact hx

namespace MainExample

/-- One service with an http and an https server. -/
def one : ProgramSetup := { services := 1, has := fun _ _ => true, waitOrder := [0], closeOrder := [0] }

theorem one_good : GoodSetup one := ⟨.refl _, .refl _⟩

/-- The https server fails, for example because its certificate cannot be read. -/
def oneFailed : ProgramRun := (ProgramRun.started one).update 0 .https (fun r => { r with status := .failed })

theorem oneFailed_comes : Comes one oneFailed :=
  ⟨_, .snoc .nil (.failure (fun x h => by cases h) (by decide))⟩

/-- Then a signal arrives. -/
def oneSignalled : ProgramRun := { oneFailed with closer := .shutting 0 .http false }

theorem oneSignalled_comes : Comes one oneSignalled := by
  obtain ⟨es, h⟩ := oneFailed_comes
  exact ⟨_, .snoc h (.signal (fun x h => by cases h) rfl)⟩

/-- The hypotheses of `C96_signal_ends_partial` are met: the failed server makes the program end with status 1, after the signal. -/
example : EndsWith one oneSignalled 1 :=
  (C96_signal_ends_partial one_good oneSignalled_comes (by simp [Signalled, oneSignalled])).2 ⟨0, .https, by decide⟩ rfl

/-- Without a failure it ends with status 0. -/
example : EndsWith one { ProgramRun.started one with closer := .shutting 0 .http false } 0 :=
  (C96_signal_ends_partial one_good ⟨_, .snoc .nil (.signal (fun x h => by cases h) rfl)⟩ (by simp [Signalled])).1
    (by
      rintro ⟨i, p, h⟩
      simp only [ProgramRun.started] at h
      split at h <;> cases h)

/-- Both servers fail: the hypotheses of `C95_failure_ends_partial` are met. -/
example : EndsWith one (oneFailed.update 0 .http (fun r => { r with status := .failed })) 1 := by
  obtain ⟨es, h⟩ := oneFailed_comes
  refine C95_failure_ends_partial one_good ⟨_, .snoc h (.failure (fun x h => by cases h) (by decide))⟩ (fun i p => ?_) ⟨0, .http, by decide⟩
  by_cases hi : i = 0
  · subst hi; cases p <;> decide
  · cases p <;> simp [ProgramRun.update, oneFailed, hi, ProgramRun.started, one]

/-- A run of the program to its end, with status 1: the hypotheses of `C94_exit_status` are met. -/
example : ∃ s, Comes one s ∧ s.main = .exited 1 := by
  obtain ⟨es, h⟩ := oneFailed_comes
  refine ⟨_, ⟨_, .snoc (.snoc h (.failure (i := 0) (p := .http) (fun x h => by cases h) (by decide)))
    (.abort (k := 0) (i := 0) rfl rfl (fun p => ?_) ⟨.http, by decide⟩)⟩, rfl⟩
  cases p <;> decide

/-- Two services with an http server each, visited in opposite orders. -/
def two : ProgramSetup := { services := 2, has := fun _ p => p == .http, waitOrder := [1, 0], closeOrder := [0, 1] }

theorem two_good : GoodSetup two := ⟨by decide, .refl _⟩

/-- The server of the first service has failed. -/
def twoFailed : ProgramRun := (ProgramRun.started two).update 0 .http (fun r => { r with status := .failed })

theorem twoFailed_path : ProgramPath two (ProgramRun.started two) [.failure] twoFailed :=
  .snoc .nil (.failure (fun x h => by cases h) (by decide))

theorem twoFailed_comes : Comes two twoFailed := ⟨_, twoFailed_path⟩

/-- A signal arrived, `Close` gave up at the first service; `Wait` waits for the second. -/
def twoStuck : ProgramRun := { twoFailed with closer := .ended }

/-- The servers are the same in every state between. -/
theorem shutdown_failed (s : ProgramRun) (i : Nat) (p : Protocol) (h : (s.server i p).status ≠ .serving) :
    (s.update i p ServerRun.shutdown).server = s.server := by
  funext j q
  simp only [ProgramRun.update, ServerRun.shutdown]
  split
  · rename_i hc
    obtain ⟨rfl, rfl⟩ := hc
    rw [if_neg h]
  · rfl

theorem twoStuck_path : ProgramPath two twoFailed [.signal, .internal, .internal, .internal, .internal, .internal] twoStuck := by
  have hne : ∀ x, twoFailed.main ≠ .exited x := fun x h => by cases h
  have h1 : ProgramPath two twoFailed [.signal] { twoFailed with closer := .shutting 0 .http false } := .snoc .nil (.signal hne rfl)
  have h2 : ProgramPath two twoFailed [.signal, .internal] { twoFailed with closer := .shutting 0 .http true } := by
    have := ProgramPath.snoc h1 (.call (k := 0) (i := 0) (p := .http) hne rfl rfl)
    simp only [shutdown_failed { twoFailed with closer := .shutting 0 .http false } 0 .http (by decide)] at this
    exact this
  have h3 : ProgramPath two twoFailed [.signal, .internal, .internal] { twoFailed with closer := .shutting 0 .https false } :=
    .snoc h2 (.nextHttps (k := 0) (i := 0) hne rfl rfl (by decide))
  have h4 : ProgramPath two twoFailed [.signal, .internal, .internal, .internal] { twoFailed with closer := .shutting 0 .https true } := by
    have := ProgramPath.snoc h3 (.call (k := 0) (i := 0) (p := .https) hne rfl rfl)
    simp only [shutdown_failed { twoFailed with closer := .shutting 0 .https false } 0 .https (by decide)] at this
    exact this
  have h5 : ProgramPath two twoFailed [.signal, .internal, .internal, .internal, .internal] { twoFailed with closer := .waiting 0 } :=
    .snoc h4 (.nextWait (k := 0) (i := 0) hne rfl rfl (by decide))
  exact .snoc h5 (.giveUp (k := 0) (i := 0) hne rfl rfl (fun p => by cases p <;> decide) ⟨.http, by decide⟩)

/-- In a state where the second service serves, `main` waits for it, and the other goroutine waits for a signal or is gone, the program itself
does nothing. -/
theorem no_internal {s : ProgramRun} {u : ProgramRun} (hm : s.main = .waiting 0) (hcl : s.closer = .idle ∨ s.closer = .ended)
    (hs : (s.server 1 .http).status = .serving) : ¬ ProgramStep two s .internal u := by
  intro h
  cases h <;> try (rename_i hk _ _; rcases hcl with hcl | hcl <;> rw [hcl] at hk <;> cases hk)
  all_goals try (rename_i hk _; rcases hcl with hcl | hcl <;> rw [hcl] at hk <;> cases hk)
  all_goals try (rename_i hk _ _ _; rcases hcl with hcl | hcl <;> rw [hcl] at hk <;> cases hk)
  all_goals simp_all [two]
  all_goals
    rename_i hstop _
    exact hstop .http (by simpa using hs)

end MainExample

/-- **C95 is false**: with two services, one whose server has failed: as long as no signal arrives and the other server does not fail as well, the
program runs on, whatever requests arrive and are answered. -/
theorem C95_false : ∃ c s, GoodSetup c ∧ Comes c s ∧ SomeServerFailed s ∧
    ∀ es t, ProgramPath c s es t → (∀ e ∈ es, e ≠ .signal ∧ e ≠ .failure) → ∀ x, t.main ≠ .exited x := by
  refine ⟨MainExample.two, MainExample.twoFailed, MainExample.two_good, MainExample.twoFailed_comes, ⟨0, .http, by decide⟩, ?_⟩
  intro es t hp he
  suffices h : t.main = .waiting 0 ∧ t.closer = .idle ∧ (t.server 1 .http).status = .serving from fun x hx => by
    rw [h.1] at hx; cases hx
  induction hp with
  | nil => exact ⟨rfl, rfl, by decide⟩
  | snoc _ hstep ih =>
    obtain ⟨h1, h2, h3⟩ := ih (fun e hmem => he e (List.mem_append_left _ hmem))
    have hev := he _ (List.mem_append_right _ (List.mem_singleton.2 rfl))
    rename_i e _
    cases e with
    | signal => exact absurd rfl hev.1
    | failure => exact absurd rfl hev.2
    | internal => exact absurd hstep (MainExample.no_internal h1 (.inl h2) h3)
    | request =>
      cases hstep
      refine ⟨h1, h2, ?_⟩
      simp only [ProgramRun.update]
      split <;> exact h3
    | answer =>
      cases hstep
      refine ⟨h1, h2, ?_⟩
      simp only [ProgramRun.update]
      split <;> exact h3

/-- **C96 is false**: with two services, one whose server has failed, a signal may leave the program running for ever: no request is being answered,
the goroutine that waits for signals is gone, and no step of the program is possible. -/
theorem C96_false : ∃ c s, GoodSetup c ∧ Comes c s ∧ Signalled s ∧ s.closer = .ended ∧ (∀ i p, (s.server i p).inFlight = 0) ∧
    (∀ x, s.main ≠ .exited x) ∧ ∀ e u, (e = .answer ∨ e = .internal ∨ e = .signal) → ¬ ProgramStep c s e u := by
  have hflight : ∀ i p, (MainExample.twoStuck.server i p).inFlight = 0 := fun i p => by
    simp only [MainExample.twoStuck, MainExample.twoFailed, ProgramRun.update, ProgramRun.started]
    split <;> rfl
  refine ⟨MainExample.two, MainExample.twoStuck, MainExample.two_good, ?_, by simp [Signalled, MainExample.twoStuck], rfl, hflight,
    (fun x h => by cases h), ?_⟩
  · exact ⟨_, MainExample.twoFailed_path.append MainExample.twoStuck_path⟩
  · rintro e u (rfl | rfl | rfl) hstep
    · cases hstep with
      | answer _ _ h0 => exact h0 (hflight _ _)
    · exact MainExample.no_internal rfl (.inr rfl) (by decide) hstep
    · cases hstep with
      | signal _ h => cases h

end Rodb
