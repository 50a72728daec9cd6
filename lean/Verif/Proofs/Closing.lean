import Verif.Spec.Closing
/-
  Lemmas about closing: every list of components is closed by closing what belongs to it, one after the other, up to the first failure.
-/
namespace Rodb
open Spec

/-- Shutting a list one after the other, until a call fails. -/
def callAll (fails : Handle → Bool) : Shutting → List Handle → Shutting × Bool
  | s, [] => (s, true)
  | s, h :: rest =>
    match s.call fails h with
    | (s, true) => callAll fails s rest
    | (s, false) => (s, false)

theorem callAll_append {fails : Handle → Bool} (a b : List Handle) (s : Shutting) :
    callAll fails s (a ++ b) = match callAll fails s a with | (s, true) => callAll fails s b | (s, false) => (s, false) := by
  induction a generalizing s with
  | nil => rfl
  | cons h rest ih =>
    simp only [List.cons_append, callAll]
    cases hc : s.call fails h with
    | mk t ok => cases ok
                 · rfl
                 · exact ih t

theorem inputClose_callAll (fails : Handle → Bool) (name : String) (s : Shutting) (d : InputDecl) :
    d.close fails name s = callAll fails s [.watch name, .watcher name, .file name] := by
  simp only [InputDecl.close, callAll]
  cases hc : s.call fails (.watch name) with
  | mk t ok =>
    cases ok
    · rfl
    · simp only
      cases hc : t.call fails (.watcher name) with
      | mk u ok =>
        cases ok
        · rfl
        · simp only
          cases hc : u.call fails (.file name) with
          | mk v ok => cases ok <;> rfl

theorem closeInputs_callAll (fails : Handle → Bool) (inputs : GoMap InputDecl) (s : Shutting) :
    closeList (fun s e => e.2.close fails e.1 s) s inputs = callAll fails s (inputs.flatMap (fun e => [.watch e.1, .watcher e.1, .file e.1])) := by
  induction inputs generalizing s with
  | nil => rfl
  | cons e rest ih =>
    rw [List.flatMap_cons, callAll_append, ← inputClose_callAll fails e.1 s e.2]
    simp only [closeList]
    cases hc : e.2.close fails e.1 s with
    | mk t ok =>
      cases ok
      · rfl
      · exact ih t

/-- The database of an index, if it has one. -/
def databaseOf (e : String × IndexDecl) : Option Handle := match e.2 with | .sqlite _ | .fts5 _ => some (.database e.1) | _ => none

theorem closeIndexes_callAll (fails : Handle → Bool) (indexes : GoMap IndexDecl) (s : Shutting) :
    closeList (fun s e => e.2.close fails e.1 s) s indexes = callAll fails s (indexes.filterMap databaseOf) := by
  induction indexes generalizing s with
  | nil => rfl
  | cons e rest ih =>
    obtain ⟨name, d⟩ := e
    simp only [closeList]
    cases d with
    | sqlite d =>
      simp only [List.filterMap_cons, databaseOf, callAll]
      rw [show IndexDecl.close fails name s (.sqlite d) = s.call fails (.database name) from rfl]
      cases hc : s.call fails (.database name) with
      | mk t ok =>
        cases ok
        · rfl
        · exact ih t
    | fts5 d =>
      simp only [List.filterMap_cons, databaseOf, callAll]
      rw [show IndexDecl.close fails name s (.fts5 d) = s.call fails (.database name) from rfl]
      cases hc : s.call fails (.database name) with
      | mk t ok =>
        cases ok
        · rfl
        · exact ih t
    | map d => simp only [IndexDecl.close, List.filterMap_cons, databaseOf]; exact ih s
    | wildcard d => simp only [IndexDecl.close, List.filterMap_cons, databaseOf]; exact ih s
    | noop d => simp only [IndexDecl.close, List.filterMap_cons, databaseOf]; exact ih s

theorem closeOutputs_nothing (outputs : GoMap OutputDecl) (s : Shutting) : closeList (fun s e => e.2.close s) s outputs = (s, true) := by
  induction outputs generalizing s with
  | nil => rfl
  | cons e rest ih => simp only [closeList, OutputDecl.close]; exact ih s

/-- What closing a list does: the calls before the first failure are made. -/
theorem callAll_eq (fails : Handle → Bool) (hs : List Handle) (s : Shutting) :
    callAll fails s hs = ({ s with
      opened := (hs.takeWhile (fun h => !fails h)).foldl List.erase s.opened, closed := s.closed ++ hs.takeWhile (fun h => !fails h) }, !hs.any fails) := by
  induction hs generalizing s with
  | nil => simp [callAll]
  | cons h rest ih =>
    simp only [callAll, Shutting.call]
    cases hf : fails h with
    | true => simp [hf]
    | false => simp [ih, hf]

theorem databases_eq (c : Config) : databases c = c.indexes.filterMap databaseOf := by
  unfold databases
  congr 1

/-- What the end of the program closes, and how many errors it logs. -/
theorem closeAll_eq (fails : Handle → Bool) (c : Config) (s : Shutting) :
    c.closeAll fails s =
      { opened := ((databases c).takeWhile (fun h => !fails h) ++ (ofInputs c).takeWhile (fun h => !fails h)).foldl List.erase s.opened
        closed := s.closed ++ ((databases c).takeWhile (fun h => !fails h) ++ (ofInputs c).takeWhile (fun h => !fails h))
        errors := s.errors + (if (databases c).any fails then 1 else 0) + (if (ofInputs c).any fails then 1 else 0) } := by
  unfold Config.closeAll
  simp only [closeOutputs_nothing, closeIndexes_callAll, closeInputs_callAll, Shutting.logged, callAll_eq, ← databases_eq]
  have hi : c.inputs.flatMap (fun e => [Handle.watch e.1, .watcher e.1, .file e.1]) = ofInputs c := rfl
  rw [hi]
  cases h1 : (databases c).any fails <;> cases h2 : (ofInputs c).any fails <;> simp [Shutting.logged, List.foldl_append]

theorem mem_databases {c : Config} {h : Handle} : h ∈ databases c ↔ IsOpen c h ∧ ∃ name, h = .database name := by
  rw [databases_eq, List.mem_filterMap]
  constructor
  · rintro ⟨⟨name, d⟩, he, hd⟩
    cases d <;> simp only [databaseOf] at hd <;> cases hd
    · exact ⟨.inl ⟨_, he⟩, _, rfl⟩
    · exact ⟨.inr ⟨_, he⟩, _, rfl⟩
  · rintro ⟨ho, name, rfl⟩
    rcases ho with ⟨d, hd⟩ | ⟨d, hd⟩
    · exact ⟨_, hd, rfl⟩
    · exact ⟨_, hd, rfl⟩

theorem mem_ofInputs {c : Config} {h : Handle} : h ∈ ofInputs c ↔ IsOpen c h ∧ OfInput h := by
  unfold ofInputs
  rw [List.mem_flatMap]
  constructor
  · rintro ⟨⟨name, d⟩, he, hh⟩
    simp only [List.mem_cons, List.not_mem_nil, or_false] at hh
    rcases hh with rfl | rfl | rfl
    · exact ⟨⟨d, he⟩, name, .inr (.inl rfl)⟩
    · exact ⟨⟨d, he⟩, name, .inl rfl⟩
    · exact ⟨⟨d, he⟩, name, .inr (.inr rfl)⟩
  · rintro ⟨ho, name, rfl | rfl | rfl⟩ <;> obtain ⟨d, hd⟩ := ho <;> exact ⟨_, hd, by simp⟩

theorem mem_opens {c : Config} {h : Handle} : h ∈ c.opens ↔ IsOpen c h := by
  unfold Config.opens
  rw [List.mem_append, List.mem_flatMap, List.mem_flatMap]
  constructor
  · rintro (⟨⟨name, d⟩, he, hh⟩ | ⟨⟨name, d⟩, he, hh⟩)
    · cases d <;> simp only [InputDecl.opens, List.mem_cons, List.not_mem_nil, or_false] at hh <;> rcases hh with rfl | rfl | rfl <;> exact ⟨_, he⟩
    · cases d <;> simp only [IndexDecl.opens, List.mem_cons, List.not_mem_nil, or_false] at hh
      · subst hh; exact ⟨_, he⟩
      · subst hh; exact .inl ⟨_, he⟩
      · subst hh; exact .inr ⟨_, he⟩
  · intro ho
    cases h with
    | watcher name => obtain ⟨d, hd⟩ := ho; exact .inl ⟨_, hd, by cases d <;> simp [InputDecl.opens]⟩
    | watch name => obtain ⟨d, hd⟩ := ho; exact .inl ⟨_, hd, by cases d <;> simp [InputDecl.opens]⟩
    | file name => obtain ⟨d, hd⟩ := ho; exact .inl ⟨_, hd, by cases d <;> simp [InputDecl.opens]⟩
    | database name =>
      rcases ho with ⟨d, hd⟩ | ⟨d, hd⟩
      · exact .inr ⟨_, hd, by simp [IndexDecl.opens]⟩
      · exact .inr ⟨_, hd, by simp [IndexDecl.opens]⟩
    | indexFile name => obtain ⟨d, hd⟩ := ho; exact .inr ⟨_, hd, by simp [IndexDecl.opens]⟩

theorem databases_nodup {c : Config} (h : DistinctNames c) : (databases c).Nodup := by
  rw [databases_eq]
  have hn := h.indexes
  generalize c.indexes = l at hn
  induction l with
  | nil => exact .nil
  | cons e rest ih =>
    rw [List.map_cons, List.nodup_cons] at hn
    rw [List.filterMap_cons]
    split
    · exact ih hn.2
    · rename_i b hb
      refine List.nodup_cons.2 ⟨fun hm => hn.1 ?_, ih hn.2⟩
      obtain ⟨e', he', hb'⟩ := List.mem_filterMap.1 hm
      have : e.1 = e'.1 := by
        obtain ⟨n, d⟩ := e; obtain ⟨n', d'⟩ := e'
        cases d <;> cases hb <;> cases d' <;> cases hb' <;> rfl
      exact this ▸ List.mem_map_of_mem he'

theorem inputHandles_nodup {l : GoMap InputDecl} (hn : (l.map (·.1)).Nodup) : (l.flatMap (fun e => [Handle.watch e.1, .watcher e.1, .file e.1])).Nodup := by
  induction l with
  | nil => exact .nil
  | cons e rest ih =>
    rw [List.map_cons, List.nodup_cons] at hn
    rw [List.flatMap_cons]
    refine List.nodup_append.2 ⟨by simp, ih hn.2, ?_⟩
    rintro a ha b hb rfl
    obtain ⟨e', he', hb'⟩ := List.mem_flatMap.1 hb
    have : e.1 = e'.1 := by
      simp only [List.mem_cons, List.not_mem_nil, or_false] at ha hb'
      rcases ha with rfl | rfl | rfl <;> rcases hb' with h | h | h <;> injection h
    exact hn.1 (this ▸ List.mem_map_of_mem he')

theorem opens_nodup {c : Config} (h : DistinctNames c) : c.opens.Nodup := by
  unfold Config.opens
  refine List.nodup_append.2 ⟨?_, ?_, ?_⟩
  · have hn := h.inputs
    generalize c.inputs = l at hn
    induction l with
    | nil => exact .nil
    | cons e rest ih =>
      rw [List.map_cons, List.nodup_cons] at hn
      rw [List.flatMap_cons]
      refine List.nodup_append.2 ⟨by cases e.2 <;> simp [InputDecl.opens], ih hn.2, ?_⟩
      rintro a ha b hb rfl
      obtain ⟨e', he', hb'⟩ := List.mem_flatMap.1 hb
      have : e.1 = e'.1 := by
        obtain ⟨n, d⟩ := e; obtain ⟨n', d'⟩ := e'
        cases d <;> cases d' <;> simp only [InputDecl.opens, List.mem_cons, List.not_mem_nil, or_false] at ha hb' <;>
          rcases ha with rfl | rfl | rfl <;> rcases hb' with h | h | h <;> injection h
      exact hn.1 (this ▸ List.mem_map_of_mem he')
  · have hn := h.indexes
    generalize c.indexes = l at hn
    induction l with
    | nil => exact .nil
    | cons e rest ih =>
      rw [List.map_cons, List.nodup_cons] at hn
      rw [List.flatMap_cons]
      refine List.nodup_append.2 ⟨by cases e.2 <;> simp [IndexDecl.opens], ih hn.2, ?_⟩
      rintro a ha b hb rfl
      obtain ⟨e', he', hb'⟩ := List.mem_flatMap.1 hb
      have : e.1 = e'.1 := by
        obtain ⟨n, d⟩ := e; obtain ⟨n', d'⟩ := e'
        cases d <;> simp only [IndexDecl.opens, List.mem_cons, List.not_mem_nil, or_false] at ha <;> subst ha <;>
          cases d' <;> simp only [IndexDecl.opens, List.mem_cons, List.not_mem_nil, or_false] at hb' <;> injection hb'
      exact hn.1 (this ▸ List.mem_map_of_mem he')
  · rintro a ha b hb rfl
    obtain ⟨⟨n, d⟩, _, ha⟩ := List.mem_flatMap.1 ha
    obtain ⟨⟨n', d'⟩, _, hb⟩ := List.mem_flatMap.1 hb
    have ha : OfInput a := by
      cases d <;> simp only [InputDecl.opens, List.mem_cons, List.not_mem_nil, or_false] at ha <;> rcases ha with rfl | rfl | rfl <;> simp [OfInput]
    obtain ⟨m, rfl | rfl | rfl⟩ := ha <;> cases d' <;> simp [IndexDecl.opens] at hb

theorem mem_foldl_erase {α : Type} [DecidableEq α] {a : α} (xs : List α) {l : List α} (hl : l.Nodup) :
    a ∈ xs.foldl List.erase l ↔ a ∈ l ∧ a ∉ xs := by
  induction xs generalizing l with
  | nil => simp
  | cons x rest ih =>
    rw [List.foldl_cons, ih (hl.erase x), hl.mem_erase_iff]
    simp only [List.mem_cons, not_or]
    exact ⟨fun ⟨⟨h1, h2⟩, h3⟩ => ⟨h2, h1, h3⟩, fun ⟨h1, h2, h3⟩ => ⟨⟨h2, h1⟩, h3⟩⟩

theorem closedFirst_input {a b : Handle} (h : ClosedFirst a b) : OfInput b := by
  rcases h with ⟨_, _, h⟩ | ⟨name, ⟨_, rfl | rfl⟩ | ⟨_, rfl⟩⟩
  · exact h
  · exact ⟨name, .inl rfl⟩
  · exact ⟨name, .inr (.inr rfl)⟩
  · exact ⟨name, .inr (.inr rfl)⟩

theorem closedFirst_pairwise {c : Config} (h : DistinctNames c) : (databases c ++ ofInputs c).Pairwise (fun a b => ¬ ClosedFirst b a) := by
  have hdb : ∀ a ∈ databases c, ∀ b, ¬ ClosedFirst b a := fun a ha b hf => by
    obtain ⟨n, rfl⟩ := (mem_databases.1 ha).2
    obtain ⟨m, h | h | h⟩ := closedFirst_input hf <;> cases h
  refine List.pairwise_append.2 ⟨?_, ?_, fun a ha b _ => hdb a ha b⟩
  · generalize databases c = l at hdb
    induction l with
    | nil => exact .nil
    | cons a rest ih => exact .cons (fun b _ => hdb a (by simp) b) (ih (fun a ha => hdb a (by simp [ha])))
  · have hn := h.inputs
    unfold ofInputs
    generalize c.inputs = l at hn
    induction l with
    | nil => exact .nil
    | cons e rest ih =>
      rw [List.map_cons, List.nodup_cons] at hn
      rw [List.flatMap_cons]
      refine List.pairwise_append.2 ⟨by simp [ClosedFirst], ih hn.2, ?_⟩
      intro a ha b hb hf
      obtain ⟨e', he', hb⟩ := List.mem_flatMap.1 hb
      have hne : e.1 ≠ e'.1 := fun h => hn.1 (h ▸ List.mem_map_of_mem he')
      simp only [List.mem_cons, List.not_mem_nil, or_false] at ha hb
      rcases ha with rfl | rfl | rfl <;> rcases hb with rfl | rfl | rfl <;> simp [ClosedFirst, hne, Ne.symm hne] at hf <;> exact hne (hf ▸ rfl)

end Rodb
