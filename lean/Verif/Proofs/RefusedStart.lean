import Verif.Proofs.Refused
import Verif.Proofs.Restart
/-
  A start of the program fails when an index cannot be built.
-/
namespace Rodb
open Rodb.Spec

theorem stored_inv {lib : SqlLib} {x : StoredIndex} (hx : x.Accepted) {input : Input} {db : SqlDb} {w : Option Nat} (hdb : db.table (metadataTable x.name) = none)
    (h : (x.start lib input ⟨db, w⟩).1 = .ok ()) : x.Buildable ∧ Storable input x.properties := by
  cases x with
  | sqlite c => exact newSqlite_inv hx hdb (by rw [← start_sqlite]; exact h)
  | fts5 c => exact newFts5_inv hx hdb (by rw [← start_fts5]; exact h)

theorem accepted_noNul {x : StoredIndex} (h : x.Accepted) : NoNul x.name := by
  cases x with
  | sqlite c => exact h.name
  | fts5 c => exact h.name

/-- The metadata of an index stay absent while another one is started. -/
theorem start_absent {x y : StoredIndex} (hx : NoNul x.name) (hy : y.Accepted) (hne : sameName y.name.toList x.name.toList = false) (lib : SqlLib) (input : Input) :
    Triple (fun db => db.table (metadataTable x.name) = none) (y.start lib input) (fun _ db => db.table (metadataTable x.name) = none)
      (fun db => db.table (metadataTable x.name) = none) := by
  have hyn := accepted_noNul hy
  refine start_keeps hy ⟨?_, ?_⟩ ?_ lib input
  · intro db db' t hu h
    rw [hu.other (by rw [sameName_comm]; exact metadata_ne_index hx hyn)]
    exact h
  · intro db db' he h
    rw [he]
    exact h
  · intro db db' t hu h
    rw [hu.other (by rw [sameName_metadata hyn hx]; exact hne)]
    exact h

theorem openIndexes_inv {lib : StartLib} {inputs : GoMap Input} : ∀ {l : GoMap IndexDecl} {st st' : Storage} {fs : GoMap OpenIndex}, l.Pairwise (fun a b => KeptApart a.2 b.2) →
    (∀ a ∈ l, ∀ x dsn, storedOf a.2 = some (x, dsn) → x.Accepted) → openIndexes lib inputs st l = (.ok fs, st') →
    ∀ a ∈ l, ∀ x dsn, storedOf a.2 = some (x, dsn) → (st.db dsn).table (metadataTable x.name) = none →
      x.Buildable ∧ ∃ input, findInput inputs (indexInput a.2) = .ok input ∧ Storable input x.properties
  | [], _, _, _, _, _, _, a, ha, _, _, _, _ => by cases ha
  | (k, d) :: l, st, st', fs, hp, hacc, h, a, ha, x, dsn, hs, hnone => by
    rw [List.pairwise_cons] at hp
    unfold openIndexes at h
    cases ho : d.openOn lib inputs st with
    | mk r st1 =>
      rw [ho] at h
      cases r with
      | error e => cases h
      | ok f =>
        dsimp only at h
        cases hr : openIndexes lib inputs st1 l with
        | mk r2 st2 =>
          rw [hr] at h
          cases r2 with
          | error e => cases h
          | ok gs =>
            have hx := hacc a ha x dsn hs
            rcases List.mem_cons.1 ha with rfl | hm
            · dsimp only at hs ⊢
              by_cases hin : ∃ input, findInput inputs (indexInput d) = .ok input
              · obtain ⟨input, hi⟩ := hin
                have hok := (openOn_stored (lib := lib) (st := st) hs hi).2 f (by rw [ho])
                obtain ⟨h1, h2⟩ := stored_inv hx hnone hok
                exact ⟨h1, input, hi, h2⟩
              · exfalso
                cases he : findInput inputs (indexInput d) with
                | ok i => exact hin ⟨i, he⟩
                | error e =>
                  cases d with
                  | sqlite c =>
                    have he : findInput inputs c.input = .error e := he
                    simp only [IndexDecl.openOn, he] at ho
                    cases ho
                  | fts5 c =>
                    have he : findInput inputs c.input = .error e := he
                    simp only [IndexDecl.openOn, he] at ho
                    cases ho
                  | wildcard c | map c | noop c => cases hs
            · refine openIndexes_inv hp.2 (fun b hb => hacc b (.tail _ hb)) hr a hm x dsn hs ?_
              have heff := openOn_effect (lib := lib) (inputs := inputs) (st := st) d
              rw [ho] at heff
              cases heff with
              | none => exact hnone
              | file hd hi => exact hnone
              | @table y dsn' input writes hd hi =>
                simp only [Storage.writeDb]
                split
                · rename_i e
                  subst e
                  have hne := (hp.1 a hm).tables (y, dsn) (x, dsn) hd hs rfl
                  have ht := (start_absent (accepted_noNul hx) (hacc _ (.head _) y dsn hd) hne st.sql input).run ⟨st.db dsn, writes⟩ hnone
                  revert ht
                  cases y.start st.sql input ⟨st.db dsn, writes⟩ with
                  | mk r s => cases r <;> exact id
                · exact hnone

theorem startOn_inv {lib : StartLib} {st : Storage} {c : Config} (hp : c.indexes.Pairwise (fun a b => KeptApart a.2 b.2))
    (hacc : ∀ a ∈ c.indexes, ∀ x dsn, storedOf a.2 = some (x, dsn) → x.Accepted) {services : GoMap (String × List Route)} (h : (startOn lib st c).1 = .ok services) :
    ∀ a ∈ c.indexes, ∀ x dsn, storedOf a.2 = some (x, dsn) → (st.db dsn).table (metadataTable x.name) = none → x.Buildable := by
  unfold startOn at h
  split at h
  · cases h
  · split at h
    · cases h
    · rename_i ho
      exact fun a ha x dsn hs hn => (openIndexes_inv hp hacc ho a ha x dsn hs hn).1

end Rodb
