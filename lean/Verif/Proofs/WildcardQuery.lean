import Verif.Proofs.WildcardCreate
import Verif.Proofs.Join
/-
  Queries on a wildcard index, creation followed by queries, and reloading.
-/
namespace Rodb
open Spec Forest

/-- The code does not change the stream. -/
def ReadOnly {α : Type} (m : M α) : Prop := ∀ s, (m s).2 = s

theorem ReadOnly.pure {α : Type} (a : α) : ReadOnly (Pure.pure a : M α) := fun _ => rfl
theorem ReadOnly.fail {α : Type} (e : Fail) : ReadOnly (M.fail e : M α) := fun _ => rfl
theorem ReadOnly.get (o n) : ReadOnly (mGet o n) := fun _ => rfl
theorem ReadOnly.fuel : ReadOnly mFuel := fun _ => rfl
theorem ReadOnly.bind {α β : Type} {m : M α} {f : α → M β} (hm : ReadOnly m) (hf : ∀ a, ReadOnly (f a)) :
    ReadOnly (m >>= f) := by
  intro s
  rw [M.bind_def]
  have := hm s
  split
  · rename_i a s' h
    rw [h] at this
    simp only at this
    rw [hf a s', this]
  · rename_i e s' h
    rw [h] at this
    exact this
theorem ReadOnly.ite {α : Type} {p : Prop} [Decidable p] {m m' : M α} (h : ReadOnly m) (h' : ReadOnly m') :
    ReadOnly (if p then m else m') := by split <;> assumption

theorem ReadOnly.getPos (o : Nat) : ReadOnly (getPos o) := by
  unfold Rodb.getPos
  exact ReadOnly.ite (ReadOnly.pure _) (ReadOnly.bind (ReadOnly.get _ _) fun _ => ReadOnly.pure _)
theorem ReadOnly.getTreeNode (o : Nat) : ReadOnly (getTreeNode o) := by
  unfold Rodb.getTreeNode
  exact ReadOnly.ite (ReadOnly.pure _) (ReadOnly.bind (ReadOnly.get _ _) fun _ => ReadOnly.pure _)
theorem ReadOnly.findChildLoop (v : Bytes) (fuel : Nat) (o : Option TreeNode) : ReadOnly (findChildLoop v fuel o) := by
  induction fuel generalizing o with
  | zero => exact ReadOnly.fail _
  | succ fuel ih =>
    cases o with
    | none => exact ReadOnly.pure _
    | some ch =>
      refine ReadOnly.bind (ReadOnly.get _ _) fun _ => ?_
      exact ReadOnly.ite (ReadOnly.pure _) (ReadOnly.bind (ReadOnly.getTreeNode _) fun _ => ih _)
theorem ReadOnly.getSequenceLoop (fuel : Nat) (n : TreeNode) (r : Bytes) : ReadOnly (getSequenceLoop fuel n r) := by
  induction fuel generalizing n r with
  | zero => exact ReadOnly.fail _
  | succ fuel ih =>
    refine ReadOnly.ite (ReadOnly.pure _) (ReadOnly.bind ?_ fun x => ?_)
    · exact ReadOnly.bind (ReadOnly.getTreeNode _) fun _ => ReadOnly.bind ReadOnly.fuel fun _ => ReadOnly.findChildLoop _ _ _
    cases x with
    | none => exact ReadOnly.pure _
    | some x =>
      simp only
      split
      · exact ReadOnly.pure _
      · exact ih _ _
theorem ReadOnly.getSequence (n : TreeNode) (r : Bytes) : ReadOnly (n.getSequence r) := by
  refine ReadOnly.bind (ReadOnly.getSequenceLoop _ _ _) fun o => ?_
  cases o with
  | none => exact ReadOnly.pure _
  | some n => exact ReadOnly.getPos _

/-- Running a read-only program on a given stream. -/
theorem WP.run {α : Type} {s : Stream} {m : M α} {Q : α → Bytes → Prop} (h : WP s.content m Q) (hr : ReadOnly m)
    (hi : s.Inv) (hb : s.content.length < maxSize) : ∃ a, m s = (.ok a, s) ∧ Q a s.content := by
  obtain ⟨a, s', h1, _, _, h4⟩ := h s hi rfl (by rw [hr s, ← hi.len]; exact hb)
  have : s' = s := by have := hr s; rw [h1] at this; exact this
  subst this
  exact ⟨a, h1, h4⟩

theorem iteratePositions_spec {s : Stream} {own : Own} (hi : s.Inv) (hb : s.content.length < maxSize) :
    ∀ {ps : List (Nat × Int)} {fuel : Nat}, PosRep s.content own ps 0 → ps.length < fuel →
      iteratePositions fuel (headPos ps) s = iterateList (ps.map (·.2)) := by
  intro ps
  induction ps with
  | nil =>
    intro fuel _ hf
    cases fuel with
    | zero => omega
    | succ fuel => rfl
  | cons x ps ih =>
    intro fuel h hf
    cases fuel with
    | zero => omega
    | succ fuel =>
      obtain ⟨o, p⟩ := x
      obtain ⟨a, h1, h2⟩ := (WP.getPos_head (Q := fun a _ => a = headPos ps) h.2 rfl).run (ReadOnly.getPos _) hi hb
      subst h2
      have hstep : (iterateStep (headPos ((o, p) :: ps)) s).1 = .ok (some p, headPos ps) := by
        simp only [headPos, iterateStep, M.bind_def, h1, M.pure_def]
      simp only [iteratePositions, hstep, ih h.2 (by simpa using hf)]
      simp [iterateList]

/-- What a query on the given tries answers, before the join. -/
def filterSpec (props : List String) (norm : Bytes → Bytes) (T : String → Trie) :
    GoMap Value → Res (Option (List (List Int)))
  | [] => .ok (some [])
  | (p, f) :: rest =>
    if p ∉ props then .error (.err "This index does not handle the property")
    else
      match f with
      | .str s =>
        if norm s = [] then .ok none
        else
          match (T p).lookup (norm s) with
          | none => .ok none
          | some l =>
            match filterSpec props norm T rest with
            | .ok (some ls) => .ok (some (l :: ls))
            | r => r
      | _ => .error (.err "Cannot filter the value because it is not a string")

/-- The index is usable and holds the tries `T`. -/
structure Ready (w : Wildcard) (T : String → Trie) : Prop where
  inv : w.stream.Inv
  bound : w.stream.content.length < maxSize
  nodup : w.config.properties.Nodup
  trees : ∃ own roots, Trees w.stream.content own T roots ∧ roots.map (·.1) = w.config.properties ∧
    w.index = indexOf roots

theorem doesHandle_iff (cfg : WildcardConfig) (p : String) : cfg.doesHandleProperty p = true ↔ p ∈ cfg.properties := by
  simp [WildcardConfig.doesHandleProperty]

theorem wildcardFilters_spec {lower} {w : Wildcard} {T : String → Trie} (h : Ready w T) (filters : GoMap Value) :
    wildcardFilters lower w filters =
      (filterSpec w.config.properties (w.config.normalize lower) T filters).map (Option.map (List.map iterateList)) := by
  obtain ⟨own, roots, ht, hk, hx⟩ := h.trees
  induction filters with
  | nil => rfl
  | cons pf rest ih =>
    obtain ⟨p, f⟩ := pf
    simp only [wildcardFilters, filterSpec]
    by_cases hp : p ∈ w.config.properties
    · have hd : w.config.doesHandleProperty p = true := (doesHandle_iff _ _).mpr hp
      have hp' := hp
      rw [← hk] at hp'
      obtain ⟨⟨p', r, fo⟩, hmem, rfl⟩ := List.mem_map.mp hp'
      have hnd : (roots.map (·.1)).Nodup := by rw [hk]; exact h.nodup
      have hg := mapGet_indexOf hnd hmem
      simp only at hg hp hd ⊢
      rw [if_neg (by simp [hd]), if_neg (by simpa using hp), hx, hg]
      cases f with
      | str s =>
        simp only
        have hrep := ht.rep _ hmem
        have her := ht.erase _ hmem
        simp only at hrep her
        by_cases hs : w.config.normalize lower s = []
        · rw [if_pos hs, hs]
          obtain ⟨a, h1, h2⟩ := (WP.getSequence_empty (Q := fun a _ => a = none) hrep rfl).run (ReadOnly.getSequence _ _) h.inv h.bound
          subst h2
          rw [h1]
          rfl
        · rw [if_neg hs]
          obtain ⟨a, h1, h2⟩ := (WP.getSequence (Q := fun a _ =>
            (a = none ∧ fo.erase.lookup (w.config.normalize lower s) = none) ∨
            ∃ ps, a = headPos ps ∧ ps ≠ [] ∧ PosRep w.stream.content own ps 0 ∧ (posTags ps).Nodup ∧
              fo.erase.lookup (w.config.normalize lower s) = some (ps.map (·.2))) hrep hs
            (fun hn => Or.inl ⟨rfl, hn⟩) (fun ps a b c d => Or.inr ⟨ps, rfl, b, a, c, d⟩)).run
            (ReadOnly.getSequence _ _) h.inv h.bound
          rw [h1]
          rcases h2 with ⟨rfl, h3⟩ | ⟨ps, rfl, h4, h5, h6, h3⟩
          · rw [her] at h3
            rw [h3]
            rfl
          · rw [her] at h3
            rw [h3]
            cases hps : headPos ps with
            | none => cases ps with
              | nil => exact absurd rfl h4
              | cons => simp [headPos] at hps
            | some hd' =>
              simp only
              rw [← hps, iteratePositions_spec h.inv h.bound h5 (by
                have h7 := h5.length_le h6
                have h8 := h.bound
                simp only [maxSize, maxFuel] at *
                omega), ih]
              generalize filterSpec w.config.properties (w.config.normalize lower) T rest = e
              rcases e with e | _ | ls <;> rfl
      | _ => rfl
    · have hd : w.config.doesHandleProperty p = false := by
        cases hc : w.config.doesHandleProperty p with
        | false => rfl
        | true => exact absurd ((doesHandle_iff _ _).mp hc) hp
      rw [if_pos (by simp [hd]), if_pos hp]
      rfl

/-- What a whole query answers, given the tries. -/
def querySpec (cfg : WildcardConfig) (lower : Bytes → Bytes) (name : String) (T : String → Trie)
    (inputName : String) (filters : GoMap Value) : Res PIter :=
  if inputName ≠ name then .error (.err "This index does not handle the input")
  else if filters.length = 0 then .error (.err "This index requires at least one filter.")
  else
    match filterSpec cfg.properties (cfg.normalize lower) T filters with
    | .error e => .error e
    | .ok none => .ok []
    | .ok (some ls) => .ok (joinIters (ls.map iterateList))

theorem getRecordPositions_spec {lower} {w : Wildcard} {T : String → Trie} (h : Ready w T) (inputName : String)
    (filters : GoMap Value) :
    w.getRecordPositions lower inputName filters = querySpec w.config lower w.inputName T inputName filters := by
  unfold Wildcard.getRecordPositions querySpec
  rw [wildcardFilters_spec h]
  generalize filterSpec w.config.properties (w.config.normalize lower) T filters = e
  split
  · rfl
  · split
    · rfl
    · rcases e with e | _ | ls <;> rfl

end Rodb
