import Verif.Spec.Watch
/-
  Invariants of the process that watches an input file.
-/
namespace Rodb
open Spec

variable {die : Bool} {s t u : WatchState} {actions opening : List WatchAction} {file : Nat} {original : Bytes}

theorem Spec.InPlace.tail {a : WatchAction} (h : InPlace (a :: actions)) : InPlace actions := fun b hb => h b (.tail _ hb)

/-- Taking an event changes only the events, the warnings and whether the program is alive. -/
theorem takeEvent_same (die : Bool) (s : WatchState) : (s.takeEvent die).atPath = s.atPath ∧ (s.takeEvent die).content = s.content ∧ (s.takeEvent die).opened = s.opened ∧
    (s.takeEvent die).watched = s.watched ∧ (s.takeEvent die).errors = s.errors := by
  unfold WatchState.takeEvent WatchState.handle
  cases s.events with
  | nil => simp
  | cons op rest => simp only; split <;> (try split) <;> simp

theorem opening_path (h : WatchState.Run die s actions t) : InPlace actions → (s.opened = none ∨ s.opened = s.atPath) → t.opened = none ∨ t.opened = t.atPath := by
  induction h with
  | nil => exact fun _ h => h
  | @cons s t u a rest h1 _ ih =>
    intro hp hs
    refine ih hp.tail ?_
    cases h1 with
    | openFile _ _ h => exact .inr h.symm
    | takeEvent =>
      obtain ⟨e1, _, e3, _⟩ := takeEvent_same die s
      rw [e1, e3]
      exact hs
    | replace => exact absurd rfl ((hp _ (.head _)).1 _)
    | overflow => exact absurd rfl (hp _ (.head _)).2
    | _ => exact hs

/-- The file is open and watched at its path, and it is as it was, or its change is noticed. -/
structure Watched (file : Nat) (s : WatchState) : Prop where
  path : s.atPath = some file
  opened : s.opened = some file
  watched : s.watched = some file

theorem Watched.step {a : WatchAction} (h1 : WatchState.Step die s a t) (ha : InPlace [a]) (h : Watched file s) : Watched file t := by
  cases h1 with
  | openFile _ hn => rw [h.opened] at hn; cases hn
  | addWatch _ _ hn => rw [h.watched] at hn; cases hn
  | takeEvent =>
    obtain ⟨e1, _, e3, e4, _⟩ := takeEvent_same die s
    exact ⟨e1 ▸ h.path, e3 ▸ h.opened, e4 ▸ h.watched⟩
  | replace => exact absurd rfl ((ha _ (.head _)).1 _)
  | _ => exact ⟨h.path, h.opened, h.watched⟩

/-- In a step, a waiting notice keeps waiting, or the program ends, or warns. -/
theorem notice_step {a : WatchAction} (h1 : WatchState.Step die s a t) (ha : InPlace [a]) (h : s.alive = false ∨ NoticeWaits s ∨ (die = false ∧ 0 < s.warnings)) :
    t.alive = false ∨ NoticeWaits t ∨ (die = false ∧ 0 < t.warnings) := by
  cases h1 with
  | takeEvent halive =>
    rw [halive] at h
    rcases h with h | ⟨op, hop, hw⟩ | ⟨hd, hw⟩
    · cases h
    · unfold WatchState.takeEvent
      cases he : s.events with
      | nil => rw [he] at hop; cases hop
      | cons o rest =>
        rw [he] at hop
        simp only [WatchState.handle]
        by_cases ho : o.write = true
        · rw [if_pos ho]
          cases die with
          | true => exact .inl rfl
          | false => exact .inr (.inr ⟨rfl, Nat.succ_pos _⟩)
        · rw [if_neg ho]
          rcases List.mem_cons.1 hop with rfl | hop
          · exact absurd hw ho
          · exact .inr (.inl ⟨op, hop, hw⟩)
    · refine .inr (.inr ⟨hd, ?_⟩)
      unfold WatchState.takeEvent WatchState.handle
      subst hd
      cases s.events with
      | nil => exact hw
      | cons o rest => simp only; split <;> simp <;> omega
  | overflow => exact absurd rfl (ha _ (.head _)).2
  | replace => exact absurd rfl ((ha _ (.head _)).1 _)
  | write =>
    rcases h with h | ⟨op, hop, hw⟩ | h
    · exact .inl h
    · exact .inr (.inl ⟨op, List.mem_append_left _ hop, hw⟩)
    · exact .inr (.inr h)
  | other =>
    rcases h with h | ⟨op, hop, hw⟩ | h
    · exact .inl h
    · exact .inr (.inl ⟨op, List.mem_append_left _ hop, hw⟩)
    · exact .inr (.inr h)
  | _ => exact h

/-- A write to the watched file leaves a notice. -/
theorem write_noticed {content : Bytes} (h1 : WatchState.Step die s (.write file content) t) (h : Watched file s) : NoticeWaits t := by
  cases h1 with
  | @write _ _ op _ hop => exact ⟨op, List.mem_append_right _ (.head _), hop⟩
  | writeMerged _ he hop => exact ⟨_, by rw [he]; exact List.mem_append_right _ (.head _), hop⟩
  | writeAway _ hn => exact absurd h.path hn
  | writeUnwatched hn => exact absurd h.watched hn

/-- Without a write to the file, its content stays. -/
theorem content_step {a : WatchAction} (h1 : WatchState.Step die s a t) (ha : ∀ content, a ≠ .write file content) : t.content file = s.content file := by
  cases h1 with
  | takeEvent => rw [(takeEvent_same die s).2.1]
  | @write f c => simp only; rw [if_neg]; rintro rfl; exact ha _ rfl
  | @writeMerged f c => simp only; rw [if_neg]; rintro rfl; exact ha _ rfl
  | @writeAway f c => simp only; rw [if_neg]; rintro rfl; exact ha _ rfl
  | @writeUnwatched f c => simp only; rw [if_neg]; rintro rfl; exact ha _ rfl
  | _ => rfl

theorem Spec.Serving.watched (h : Serving die s file original opening actions) (ho : InPlace opening) (ha : InPlace actions) :
    Watched file s ∧ ((¬ Written file actions ∧ s.content file = original) ∨ s.alive = false ∨ NoticeWaits s ∨ (die = false ∧ 0 < s.warnings)) ∧
      (Written file actions → s.alive = false ∨ NoticeWaits s ∨ (die = false ∧ 0 < s.warnings)) := by
  obtain ⟨atPath, content, s₀, s₁, h1, h2, h3, h4, h5⟩ := h
  have h0 : Watched file s₁ := by
    have := opening_path h1 ho (.inl rfl)
    cases h2 with
    | @addWatch f _ hn _ hf =>
      rcases this with h | h
      · exact absurd h hn
      · refine ⟨h4, h.trans h4, ?_⟩
        simp only
        rw [← hf]
        exact h4
  clear h1 h2 h4
  induction h3 generalizing original with
  | nil => exact ⟨h0, .inl ⟨(fun ⟨_, h⟩ => nomatch h), h5⟩, (fun ⟨_, h⟩ => nomatch h)⟩
  | @cons s t u a rest g1 g2 ih =>
    have ha1 : InPlace [a] := fun b hb => ha b (by rw [List.mem_singleton.1 hb]; exact .head _)
    obtain ⟨k1, k2, k3⟩ := ih ha.tail (original := t.content file) rfl (h0.step g1 ha1)
    by_cases hw : ∃ c, a = .write file c
    · obtain ⟨c, rfl⟩ := hw
      have hlast : u.alive = false ∨ NoticeWaits u ∨ (die = false ∧ 0 < u.warnings) := by
        have hn := write_noticed g1 h0
        clear ih k1 k2 k3
        have : ∀ {s actions t}, WatchState.Run die s actions t → InPlace actions → (s.alive = false ∨ NoticeWaits s ∨ (die = false ∧ 0 < s.warnings)) →
            t.alive = false ∨ NoticeWaits t ∨ (die = false ∧ 0 < t.warnings) := by
          intro s actions t h
          induction h with
          | nil => exact fun _ h => h
          | @cons s t u a rest g1 _ ih => exact fun hp hs => ih hp.tail (notice_step g1 (fun b hb => hp b (by rw [List.mem_singleton.1 hb]; exact .head _)) hs)
        exact this g2 ha.tail (.inr (.inl hn))
      exact ⟨k1, .inr hlast, fun _ => hlast⟩
    · have hc := content_step (file := file) g1 (fun c hc => hw ⟨c, hc⟩)
      refine ⟨k1, ?_, ?_⟩
      · rcases k2 with ⟨k2, k2'⟩ | k2
        · refine .inl ⟨fun ⟨c, hc⟩ => ?_, by rw [k2', hc, h5]⟩
          rcases List.mem_cons.1 hc with h | h
          · exact hw ⟨c, h.symm⟩
          · exact k2 ⟨c, h⟩
        · exact .inr k2
      · rintro ⟨c, hc⟩
        rcases List.mem_cons.1 hc with h | h
        · exact absurd ⟨c, h.symm⟩ hw
        · exact k3 ⟨c, h⟩

/-- Without writes, no event is of the operation `Write`. -/
theorem quiet_step {a : WatchAction} (h1 : WatchState.Step die s a t) (ha : ∀ file c, a ≠ .write file c) (hs : s.alive = true ∧ ∀ op ∈ s.events, op.write = false) :
    t.alive = true ∧ ∀ op ∈ t.events, op.write = false := by
  cases h1 with
  | takeEvent =>
    unfold WatchState.takeEvent
    cases he : s.events with
    | nil => simp only; exact ⟨hs.1, he ▸ hs.2⟩
    | cons op rest =>
      rw [he] at hs
      simp only [WatchState.handle, hs.2 op (.head _), Bool.false_eq_true, if_false]
      exact ⟨hs.1, fun op h => hs.2 op (.tail _ h)⟩
  | write => exact absurd rfl (ha _ _)
  | writeMerged => exact absurd rfl (ha _ _)
  | writeAway => exact absurd rfl (ha _ _)
  | writeUnwatched => exact absurd rfl (ha _ _)
  | replace hev => exact ⟨hs.1, fun op h => (List.mem_append.1 h).elim (hs.2 op) (hev op)⟩
  | other hev => exact ⟨hs.1, fun op h => (List.mem_append.1 h).elim (hs.2 op) (hev op)⟩
  | overflow hk => exact ⟨hs.1, fun op h => hs.2 op (hk.subset h)⟩
  | _ => exact hs

/-- A notice among the first `n` events ends the program before `n` events are taken. -/
theorem notice_bound (h : WatchState.Run true s actions t) : InPlace actions → ∀ n, (∃ op ∈ s.events.take n, op.write = true) → t.alive = true →
    actions.count .takeEvent < n := by
  induction h with
  | nil =>
    rintro - n ⟨op, hop, _⟩ _
    cases n with
    | zero => cases hop
    | succ n => exact Nat.succ_pos n
  | @cons s t u a rest h1 h2 ih =>
    intro hp n hn halive
    have hdead : ∀ {s actions t}, WatchState.Run true s actions t → t.alive = true → s.alive = true := by
      intro s actions t h
      induction h with
      | nil => exact id
      | @cons s t u a rest g1 _ ih =>
        intro hu
        have ht := ih hu
        cases g1 <;> first | assumption | exact ht
    have key : ∀ {m}, a ≠ .takeEvent → (∃ op ∈ t.events.take m, op.write = true) → (a :: rest).count .takeEvent < m := by
      intro m ha hm
      rw [List.count_cons_of_ne ha]
      exact ih hp.tail m hm halive
    cases h1 with
    | takeEvent _ hne =>
      obtain ⟨op, hop, hw⟩ := hn
      cases n with
      | zero => cases hop
      | succ n =>
        rw [List.count_cons_self]
        refine Nat.succ_lt_succ (ih hp.tail n ?_ halive)
        have hta := hdead h2 halive
        revert hta
        unfold WatchState.takeEvent
        cases he : s.events with
        | nil => exact absurd he hne
        | cons o rest =>
          rw [he, List.take_succ_cons] at hop
          simp only [WatchState.handle]
          by_cases ho : o.write = true
          · rw [if_pos ho]
            exact fun h => nomatch h
          · rw [if_neg ho]
            rcases List.mem_cons.1 hop with rfl | hop
            · exact absurd hw ho
            · exact fun _ => ⟨op, hop, hw⟩
    | replace => exact absurd rfl ((hp _ (.head _)).1 _)
    | overflow => exact absurd rfl (hp _ (.head _)).2
    | write =>
      obtain ⟨op, hop, hw⟩ := hn
      exact key (by simp) ⟨op, by rw [List.take_append]; exact List.mem_append_left _ hop, hw⟩
    | other =>
      obtain ⟨op, hop, hw⟩ := hn
      exact key (by simp) ⟨op, by rw [List.take_append]; exact List.mem_append_left _ hop, hw⟩
    | _ => exact key (by simp) hn

/-- Without `dieOnInputChange` nothing ends the program. -/
theorem tolerant_step {a : WatchAction} (h1 : WatchState.Step false s a t) (hs : s.alive = true) : t.alive = true := by
  cases h1 with
  | takeEvent =>
    unfold WatchState.takeEvent WatchState.handle
    cases s.events with
    | nil => exact hs
    | cons op rest => simp only [Bool.false_eq_true, if_false]; split <;> exact hs
  | _ => exact hs

end Rodb
