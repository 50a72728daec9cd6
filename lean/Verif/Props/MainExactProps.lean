import Verif.Props.MainProps
import Verif.Proofs.MainExact
/-
  C95 and C96, exactly: when the program ends although a server has failed.
-/
namespace Rodb
open Spec

/-- **C95**, exactly: the program ends by itself with the exit status 1 if the failure is noticed, that is if the service with the failed server and those that the
program waits for before it serve no more. Otherwise it runs on, whatever requests arrive and are answered, until a signal arrives or another server fails. Missing for
the full C95: the second case, see `C95_false`. -/
theorem C95_exactly_partial {c : ProgramSetup} (hc : GoodSetup c) {s : ProgramRun} (h : Comes c s) (hf : SomeServerFailed s) :
    (Noticed c s → EndsWith c s 1) ∧
    (¬ Noticed c s → ¬ Signalled s → ∀ es t, ProgramPath c s es t → (∀ e ∈ es, e ≠ .signal ∧ e ≠ .failure) → ∀ x, t.main ≠ .exited x) := by
  refine ⟨fun hn => ⟨stepsLeft c s, fun es t hp he => ⟨?_, fun hstuck => ?_⟩⟩, fun hn hs es t hp he x hx => ?_⟩
  · have := stepsLeft_path (runInv_comes h) hp he
    omega
  · have hn' : Noticed c t := by
      obtain ⟨k, i, h1, ⟨p, h2⟩, h3⟩ := hn
      exact ⟨k, i, h1, ⟨p, failed_forth hp h2⟩, fun m hm j hj q => stopped_forth hp (h3 m hm j hj q)⟩
    obtain ⟨x, hx⟩ := stuck_noticed (runInv_path hp (runInv_comes h)) hn' hstuck
    rcases exit_status hc (runInv_path hp (runInv_comes h)) hx with ⟨_, hno⟩ | ⟨rfl, _⟩
    · exact absurd ((inside_failed hp he).2 hf) hno
    · exact hx
  · have hidle : s.closer = .idle := Classical.byContradiction (fun h => hs h)
    obtain ⟨_, hback⟩ := idle_path hp hidle he
    have hcomes : Comes c t := by
      obtain ⟨fs, h⟩ := h
      exact ⟨_, h.append hp⟩
    rcases exit_status hc (runInv_comes hcomes) hx with ⟨_, hno⟩ | ⟨rfl, _⟩
    · obtain ⟨i, p, hfi⟩ := hf
      exact hno ⟨i, p, failed_forth hp hfi⟩
    · obtain ⟨k, i, h1, ⟨p, h2⟩, h3⟩ := exitInv_comes hcomes 1 hx (by decide)
      exact hn ⟨k, i, h1, ⟨p, failed_back hp (fun e hm => (he e hm).2) h2⟩, fun m hm j hj q => hback j q (h3 m hm j hj q)⟩

/-- **C96**, exactly: after a signal, with a server that has failed, the program ends by itself with the exit status 1 if there is a service with a failed server such
that it and those that the program waits for before it serve no more or are closed in turn. Otherwise it runs on for ever, unless another server fails, or it is
killed. (Without a failed server it always ends: `C96_signal_ends_partial`.) Missing for the full C96: the second case, see `C96_false`. -/
theorem C96_exactly_partial {c : ProgramSetup} (hc : GoodSetup c) {s : ProgramRun} (h : Comes c s) (hsig : Signalled s) (hf : SomeServerFailed s) :
    (WillBeNoticed c s → EndsWith c s 1) ∧
    (¬ WillBeNoticed c s → ∀ es t, ProgramPath c s es t → (∀ e ∈ es, e ≠ .failure) → ∀ x, t.main ≠ .exited x) := by
  refine ⟨fun hn => ⟨stepsLeft c s, fun es t hp he => ⟨?_, fun hstuck => ?_⟩⟩, fun hn es t hp he x hx => ?_⟩
  · have := stepsLeft_path (runInv_comes h) hp he
    omega
  · have hcomes : Comes c t := by
      obtain ⟨fs, h⟩ := h
      exact ⟨_, h.append hp⟩
    have hnf : ∀ e ∈ es, e ≠ .failure := fun e hm h' => by rcases he e hm with h | h <;> rw [h] at h' <;> cases h'
    suffices ∃ x, t.main = .exited x by
      obtain ⟨x, hx⟩ := this
      rcases exit_status hc (runInv_comes hcomes) hx with ⟨_, hno⟩ | ⟨rfl, _⟩
      · exact absurd ((inside_failed hp he).2 hf) hno
      · exact hx
    rcases stuck_closer hc (runInv_comes hcomes) (signalled_path hp hsig) hstuck with hcl | hx
    · refine stuck_noticed (runInv_comes hcomes) ?_ hstuck
      obtain ⟨k, i, h1, ⟨p, h2⟩, h3⟩ := hn
      refine ⟨k, i, h1, ⟨p, failed_forth hp h2⟩, fun m hm j hj q => ?_⟩
      rcases h3 m hm j hj with hs | ⟨k', hk', hbefore⟩
      · exact stopped_forth hp (hs q)
      · have hci := closedInv_comes hcomes
        simp only [ClosedInv, hcl] at hci
        rcases hci with hall | ⟨n, i', g1, ⟨p', g2⟩, g3⟩
        · exact hall k' j hk' q
        · by_cases hle : k' ≤ n
          · exact g3 k' hle j hk' q
          · exact absurd (failed_back hp hnf g2) (hbefore n (by omega) i' g1 p')
    · exact hx
  · have hcomes : Comes c t := by
      obtain ⟨fs, h⟩ := h
      exact ⟨_, h.append hp⟩
    rcases exit_status hc (runInv_comes hcomes) hx with ⟨_, hno⟩ | ⟨rfl, _⟩
    · obtain ⟨i, p, hfi⟩ := hf
      exact hno ⟨i, p, failed_forth hp hfi⟩
    · obtain ⟨k, i, h1, ⟨p, h2⟩, h3⟩ := exitInv_comes hcomes 1 hx (by decide)
      refine hn ⟨k, i, h1, ⟨p, failed_back hp he h2⟩, fun m hm j hj => ?_⟩
      by_cases hr : ClosedInTurn c s j
      · exact .inr hr
      · exact .inl (fun q => (stopped_back hp (closedInv_comes h) he (h3 m hm j hj q)).resolve_right hr)

/-- In the state of `C95_false` the failure is not noticed: the program waits for the other service first. -/
example : Comes MainExample.two MainExample.twoFailed ∧ SomeServerFailed MainExample.twoFailed ∧ ¬ Noticed MainExample.two MainExample.twoFailed := by
  refine ⟨MainExample.twoFailed_comes, ⟨0, .http, by decide⟩, ?_⟩
  rintro ⟨k, i, h1, h2, h3⟩
  exact h3 0 (Nat.zero_le _) 1 rfl .http (by decide)

/-- If it waits for the failed service first, it is. -/
example : let c := { MainExample.two with waitOrder := [0, 1] }
    GoodSetup c ∧ Noticed c MainExample.twoFailed ∧ ∃ s, Comes c s ∧ Noticed c s ∧ EndsWith c s 1 := by
  intro c
  have hg : GoodSetup c := ⟨List.Perm.refl _, MainExample.two_good.closeOrder⟩
  have hn : Noticed c MainExample.twoFailed := by
    refine ⟨0, 0, rfl, ⟨.http, by decide⟩, fun m hm j hj p => ?_⟩
    obtain rfl : m = 0 := by omega
    cases hj
    cases p <;> decide
  have hcomes : Comes c MainExample.twoFailed := ⟨[.failure], .snoc .nil (.failure (s := ProgramRun.started c) (i := 0) (p := .http) (fun x h => by cases h) (by decide))⟩
  exact ⟨hg, hn, _, hcomes, hn, (C95_exactly_partial hg hcomes ⟨0, .http, by decide⟩).1 hn⟩

/-- In the state of `C96_false` it will not be noticed. -/
example : Signalled MainExample.twoStuck ∧ ¬ WillBeNoticed MainExample.two MainExample.twoStuck := by
  refine ⟨by simp [Signalled, MainExample.twoStuck], ?_⟩
  rintro ⟨k, i, h1, h2, h3⟩
  rcases h3 0 (Nat.zero_le _) 1 rfl with h | ⟨m, hm, h⟩
  · exact h .http (by decide)
  · match m, hm, h with
    | 0, hm, _ => cases hm
    | m + 1, _, h => exact h 0 (Nat.succ_pos _) 0 rfl .http (by decide)

end Rodb
