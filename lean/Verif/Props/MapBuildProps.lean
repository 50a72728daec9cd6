import Verif.Props.MapNoopProps
import Verif.Proofs.MapBuild
/-
  C16, exactly: which inputs make the build of a map index panic.
-/
namespace Rodb
open Spec

/-- **C16**, exactly: with the values in the order in which they are read (record by record, and property by property), the build succeeds if all are scalars; otherwise
the first one that is not decides. The process panics if it is an array that leads to an array of scalars by its first elements that are not scalars, and
there is an ordinary error if it is an object, an array that leads to an object, or cannot be read. Missing for the full C16: that it never panics, see `C16_false`. -/
theorem C16_first_decides_partial (cfg : MapConfig) (input : Input) (hin : InputFails IsError input cfg.properties) (rs : List (Res Rec)) (hscan : input.scan = .ok rs) :
    ((∃ m, newMap cfg input = .ok m) ↔ ∀ x ∈ readInOrder rs cfg.properties, ∃ v, x = .ok v ∧ Scalar v) ∧
    ((∃ msg, newMap cfg input = .error (.panic msg)) ↔
      ∃ before v after, readInOrder rs cfg.properties = before ++ .ok v :: after ∧ (∀ x ∈ before, ∃ w, x = .ok w ∧ Scalar w) ∧ LeadsToFlat v) ∧
    ((∃ m, newMap cfg input = .ok m) ∨ (∃ msg, newMap cfg input = .error (.panic msg)) ∨ ∃ msg, newMap cfg input = .error (.err msg)) := by
  obtain ⟨h1, _, _⟩ := mapEmpty_spec cfg.properties [] (by intro p m h; cases h)
  have hm := mapIndexRecords_met (props := cfg.properties) rs (mapEmpty cfg.properties []) (fun p hp => ⟨_, h1 p hp⟩) (hin.next rs hscan) (hin.get rs hscan)
  have hnew : newMap cfg input = (mapIndexRecords cfg.properties rs (mapEmpty cfg.properties [])).bind
      (fun index => .ok { config := cfg, inputName := input.name, index := index }) := by
    simp only [newMap, hscan, bind, Except.bind]
  rcases hm with ⟨g1, index, g2, _⟩ | ⟨⟨a, v, b, g0, g1, g2⟩, msg, g3⟩ | ⟨⟨a, x, b, g0, g1, g2, g3⟩, msg, g4⟩
  · rw [g2] at hnew
    refine ⟨⟨fun _ => g1, fun _ => ⟨_, hnew⟩⟩, ⟨fun ⟨_, h⟩ => (by rw [hnew] at h; cases h), fun ⟨a, v, b, h1, _, h3⟩ => ?_⟩, .inl ⟨_, hnew⟩⟩
    obtain ⟨w, hw, hs⟩ := g1 (.ok v) (by rw [h1]; exact List.mem_append_right _ (.head _))
    cases hw
    exact absurd hs h3.not_scalar
  · rw [g3] at hnew
    refine ⟨⟨fun ⟨_, h⟩ => (by rw [hnew] at h; cases h), fun h => ?_⟩, ⟨fun _ => ⟨a, v, b, g0, g1, g2⟩, fun _ => ⟨_, hnew⟩⟩, .inr (.inl ⟨_, hnew⟩)⟩
    obtain ⟨w, hw, hs⟩ := h (.ok v) (by rw [g0]; exact List.mem_append_right _ (.head _))
    cases hw
    exact absurd hs g2.not_scalar
  · rw [g4] at hnew
    refine ⟨⟨fun ⟨_, h⟩ => (by rw [hnew] at h; cases h), fun h => ?_⟩, ⟨fun ⟨_, h⟩ => (by rw [hnew] at h; cases h), fun ⟨a', v, b', h1, h2, h3⟩ => ?_⟩, .inr (.inr ⟨_, hnew⟩)⟩
    · exact absurd (h x (by rw [g0]; exact List.mem_append_right _ (.head _))) g2
    · rw [g0] at h1
      have := first_unique h1 g1 h2 g2 (fun ⟨w, hw, hs⟩ => by cases hw; exact h3.not_scalar hs)
      exact absurd h3 (g3 v this)

/-- Of the arrays [[1], {}] and [{}, [1]] the first one makes the process panic, the second one is an error. -/
example : let read (v : Value) : Input := { MapExample.input with scan := .ok [.ok { position := 0, all := .ok [], get := fun _ => .ok v }] }
    (∃ msg, newMap MapExample.cfg (read (.arr [.arr [.int 1], .obj []])) = .error (.panic msg)) ∧ ∃ msg, newMap MapExample.cfg (read (.arr [.obj [], .arr [.int 1]])) = .error (.err msg) := by
  intro read
  have hin : ∀ v, InputFails IsError (read v) MapExample.cfg.properties := fun v => by
    constructor
    · intro e h; cases h
    · intro e h; cases h
    · intro e h; cases h
    · intro rs h e he
      cases h
      simp at he
    · intro rs h r hr p _ e he
      cases h
      simp only [List.mem_cons, Except.ok.injEq, List.not_mem_nil, or_false] at hr
      subst hr
      cases he
  refine ⟨(C16_first_decides_partial _ _ (hin _) _ rfl).2.1.2 ⟨[], _, _, rfl, fun _ h => (by cases h), .inside (before := []) (fun _ h => (by cases h)) (.flat (fun v hv => ?_))⟩, _, rfl⟩
  cases List.mem_singleton.1 hv
  trivial

end Rodb
