import Verif.Spec.Progress
/-
  C121 : the messages about the progress of building an index.
-/
namespace Rodb
open Spec

theorem one_le_round {f : FloatRounding} (hf : GoodRounding f) {size : Int} (hs : 0 < size) : (1 : Rat) ≤ f.round size := by
  rw [← hf.one]
  exact hf.monotone _ _ (by exact_mod_cast hs)

theorem percent_mono {f : FloatRounding} (hf : GoodRounding f) {size : Int} (hs : 0 < size) {p q : Int} (h : p ≤ q) : f.percent p size ≤ f.percent q size := by
  have h1 := one_le_round hf hs
  have hne : f.round size ≠ 0 := fun h => by rw [h] at h1; revert h1; decide
  have h0 : (0 : Rat) ≤ (f.round size)⁻¹ := by
    rcases Rat.le_total (a := 0) (b := (f.round size)⁻¹) with h | h
    · exact h
    · have := Rat.mul_le_mul_of_nonneg_left h (Rat.le_trans (by decide) h1 : (0 : Rat) ≤ f.round size)
      rw [Rat.mul_inv_cancel _ hne, Rat.mul_zero] at this
      exact absurd this (by decide)
  unfold FloatRounding.percent
  refine Rat.floor_monotone (hf.monotone _ _ (Rat.mul_le_mul_of_nonneg_right (hf.monotone _ _ ?_) (by decide)))
  rw [Rat.div_def, Rat.div_def]
  exact Rat.mul_le_mul_of_nonneg_right (hf.monotone _ _ (by exact_mod_cast h)) h0

theorem percent_zero {f : FloatRounding} (hf : GoodRounding f) (size : Int) : f.percent 0 size = 0 := by
  unfold FloatRounding.percent
  simp [hf.zero, Rat.div_def, Rat.zero_mul]
  rfl

theorem percent_full {f : FloatRounding} (hf : GoodRounding f) {size : Int} (hs : 0 < size) : f.percent size size = 100 := by
  have h1 := one_le_round hf hs
  have hne : f.round size ≠ 0 := fun h => by rw [h] at h1; revert h1; decide
  unfold FloatRounding.percent
  rw [Rat.div_def, Rat.mul_inv_cancel _ hne, hf.one, Rat.one_mul, hf.hundred]
  rfl

theorem updates_from {f : FloatRounding} {calls : List (Int × Int)} {p : Progress} {m : ProgressMessage} (hm : m ∈ p.updates f calls) :
    (m.time, m.offset) ∈ calls ∧ m.percent = f.percent m.offset p.totalSize ∧ p.nextProgress < m.time := by
  induction calls generalizing p with
  | nil => cases hm
  | cons c rest ih =>
    obtain ⟨now, position⟩ := c
    unfold Progress.updates Progress.update at hm
    by_cases hs : p.totalSize ≠ 0
    · by_cases hn : now > p.nextProgress
      · rw [if_pos hs, if_pos hn] at hm
        rcases List.mem_cons.1 hm with rfl | hm
        · exact ⟨List.mem_cons_self .., rfl, hn⟩
        · obtain ⟨h1, h2, h3⟩ := ih hm
          exact ⟨List.mem_cons_of_mem _ h1, h2, by simp only at h3; omega⟩
      · rw [if_pos hs, if_neg hn] at hm
        obtain ⟨h1, h2, h3⟩ := ih hm
        exact ⟨List.mem_cons_of_mem _ h1, h2, h3⟩
    · rw [if_neg hs] at hm
      obtain ⟨h1, h2, h3⟩ := ih hm
      exact ⟨List.mem_cons_of_mem _ h1, h2, h3⟩

theorem updates_pairwise {f : FloatRounding} (hf : GoodRounding f) {calls : List (Int × Int)} {p : Progress} (hs : 0 < p.totalSize)
    (hpos : (calls.map (·.2)).Pairwise (· ≤ ·)) :
    (p.updates f calls).Pairwise (fun a b => a.time + second < b.time ∧ a.percent ≤ b.percent ∧ a.offset ≤ b.offset) := by
  induction calls generalizing p with
  | nil => exact .nil
  | cons c rest ih =>
    obtain ⟨now, position⟩ := c
    rw [List.map_cons, List.pairwise_cons] at hpos
    unfold Progress.updates Progress.update
    rw [if_pos (by omega)]
    by_cases hn : now > p.nextProgress
    · rw [if_pos hn]
      refine List.pairwise_cons.2 ⟨fun m hm => ?_, ih (p := { p with nextProgress := now + 1000000000 }) hs hpos.2⟩
      obtain ⟨h1, h2, h3⟩ := updates_from hm
      have ho : position ≤ m.offset := hpos.1 _ (List.mem_map_of_mem (f := Prod.snd) h1)
      exact ⟨h3, by rw [h2]; exact percent_mono hf hs ho, ho⟩
    · rw [if_neg hn]
      exact ih hs hpos.2

theorem updates_shown {f : FloatRounding} {calls : List (Int × Int)} {p : Progress} (hs : p.totalSize ≠ 0) (ht : (calls.map (·.1)).Pairwise (· ≤ ·)) {c : Int × Int} (hc : c ∈ calls) :
    c.1 ≤ p.nextProgress ∨ ∃ m ∈ p.updates f calls, m.time ≤ c.1 ∧ c.1 ≤ m.time + second := by
  induction calls generalizing p with
  | nil => cases hc
  | cons d rest ih =>
    obtain ⟨now, position⟩ := d
    rw [List.map_cons, List.pairwise_cons] at ht
    unfold Progress.updates Progress.update
    rw [if_pos hs]
    by_cases hn : now > p.nextProgress
    · rw [if_pos hn]
      rcases List.mem_cons.1 hc with rfl | hc
      · exact .inr ⟨_, List.mem_cons_self .., Int.le_refl _, by simp only [second]; omega⟩
      · rcases ih (p := { p with nextProgress := now + 1000000000 }) hs ht.2 hc with h | ⟨m, hm, h⟩
        · exact .inr ⟨_, List.mem_cons_self .., ht.1 _ (List.mem_map_of_mem (f := Prod.fst) hc), h⟩
        · exact .inr ⟨m, List.mem_cons_of_mem _ hm, h⟩
    · rw [if_neg hn]
      rcases List.mem_cons.1 hc with rfl | hc
      · exact .inl (by simp only; omega)
      · exact ih hs ht.2 hc

/-- **C121** While an index is built from a file with a known size, every message tells the position of a record that is being read, and a percentage from 0 to 100; messages are more than a second
apart, and neither percentages nor positions go back. Whenever a record is read after the start, there was a message at most a second before, or there is one now. -/
theorem C121_progress {f : FloatRounding} (hf : GoodRounding f) {start size : Int} (hs : 0 < size) {calls : List (Int × Int)} (hc : ScanCalls start size calls) :
    let messages := (trackProgress (.ok size) start).updates f calls
    (∀ m ∈ messages, (m.time, m.offset) ∈ calls ∧ 0 ≤ m.percent ∧ m.percent ≤ 100) ∧
    messages.Pairwise (fun a b => a.time + second < b.time ∧ a.percent ≤ b.percent ∧ a.offset ≤ b.offset) ∧
    ∀ now position, (now, position) ∈ calls → start < now → ∃ m ∈ messages, m.time ≤ now ∧ now ≤ m.time + second := by
  refine ⟨fun m hm => ?_, updates_pairwise hf hs hc.positions, ?_⟩
  · obtain ⟨h1, h2, _⟩ := updates_from hm
    have hw := hc.within _ h1
    refine ⟨h1, ?_, ?_⟩
    · rw [h2, ← percent_zero hf size]; exact percent_mono hf hs hw.1
    · rw [h2, ← percent_full hf hs]; exact percent_mono hf hs hw.2
  · intro now position hm hn
    rcases updates_shown (p := trackProgress (.ok size) start) (f := f) (by simp only [trackProgress]; omega) hc.times hm with h | h
    · exact absurd h (by simp only [trackProgress]; omega)
    · exact h

/-- **C121** Without a size, or for an empty file, there are no messages. -/
theorem C121_silent (f : FloatRounding) (size : Res Int) (start : Int) (calls : List (Int × Int)) (hs : ∀ n, size = .ok n → n = 0) :
    (trackProgress size start).updates f calls = [] := by
  have : (trackProgress size start).totalSize = 0 := by
    cases size with
    | error e => rfl
    | ok n => exact hs n rfl
  generalize trackProgress size start = p at this
  induction calls with
  | nil => rfl
  | cons c rest ih =>
    unfold Progress.updates Progress.update
    rw [if_neg (by simp [this])]
    exact ih

/-- Exact arithmetic is a rounding as asked for. -/
def exactRounding : FloatRounding := ⟨id⟩

theorem exactRounding_good : GoodRounding exactRounding := ⟨fun _ _ h => h, rfl, rfl, rfl⟩

/-- The hypotheses of `C121_progress` are met: a file of 400 bytes, records read after 1, 2, 1500000000 and 1500000001 nanoseconds. -/
example : ScanCalls 0 400 [(1, 0), (2, 100), (1500000000, 250), (1500000001, 300)] :=
  ⟨by decide, by decide, by decide, by decide⟩

example : (trackProgress (.ok 400) 0).updates exactRounding [(1, 0), (2, 100), (1500000000, 250), (1500000001, 300)] = [⟨1, 0, 0⟩, ⟨1500000000, 62, 250⟩] := by decide +kernel

example := C121_silent exactRounding (.error (.err "no such file")) 0 [(5, 3)] (fun _ h => by cases h)

end Rodb
