import Verif.Proofs.RefusedStart
import Verif.Props.FtsProps
import Verif.Props.RestartProps
import Verif.Proofs.NeverBuilt
import Verif.Props.ChangedProps
/-
  C117: a SQLite or full-text index that SQLite cannot build makes the start fail.
-/
namespace Rodb
open Rodb.Spec

/-- **C117** On an empty database, a SQLite index is built exactly if SQLite can build it (it has properties, their names differ in more than the case of letters, and their collations exist) and the
records of the input can be stored: otherwise starting fails. -/
theorem C117_sqlite (lib : SqlLib) (c : SqliteDecl) (hc : SqliteAccepted c) (input : Input) :
    (newSqlite lib c input ⟨emptyDb, none⟩).1 = .ok () ↔ SqliteBuildable c ∧ Storable input (c.properties.map (·.name)) := by
  constructor
  · exact newSqlite_inv hc rfl
  · rintro ⟨hb, ⟨size, hsize⟩, ⟨time, htime⟩, records, hscan, hrec⟩
    exact C62_builds hc hb.some hb.different hb.collations hsize htime hscan (fun r hr p hp => hrec r hr p.name (List.mem_map_of_mem hp))

/-- **C117** On an empty database, a full-text index is built exactly if FTS5 can build it (it has properties, their names differ in more than the case of letters and are not used by the table itself,
the tokenizer exists, the prefixes are at most 31 and from 1 to 999) and the records of the input can be stored: otherwise starting fails. -/
theorem C117_fts5 (lib : SqlLib) (c : Fts5Decl) (hc : Fts5Accepted c) (input : Input) :
    (newFts5 lib c input ⟨emptyDb, none⟩).1 = .ok () ↔ FtsBuildable c ∧ Storable input c.properties := by
  constructor
  · exact newFts5_inv hc rfl
  · rintro ⟨hb, ⟨size, hsize⟩, ⟨time, htime⟩, records, hscan, hrec⟩
    exact C62_builds_fts5 hc hb hsize htime hscan hrec

section
variable {config : ConfigLib} {p : ParsedConfig} {c c' : Config}

theorem ownPlaces_pairwise (hload : loadConfig config p = .ok c) (hre : Reordered c c') (h : OwnPlaces config p) : c'.indexes.Pairwise (fun a b => KeptApart a.2 b.2) := by
  obtain ⟨_, _, _, ⟨k3, hk3⟩, _⟩ := loadConfig_ok hload
  have hn : (c'.indexes.map (·.1)).Nodup := (hre.indexes.map _).nodup_iff.1 k3
  have hn' : c'.indexes.Pairwise (fun a b => a.1 ≠ b.1) := List.pairwise_map.1 hn
  refine List.Pairwise.imp_of_mem ?_ hn'
  intro a b ha hb hab
  have ha := hre.indexes.symm.subset ha
  have hb := hre.indexes.symm.subset hb
  refine ((ownPlaces_apart hload h b hb) a ha).resolve_left (fun e => hab ?_)
  rw [← (hk3 a.1 a.2 ha).1, ← (hk3 b.1 b.2 hb).1, e]

theorem accepted_of_wellFormed (hw : WellFormed config p) {i : IndexDecl} (hi : i ∈ p.indexes) {x : StoredIndex} {dsn : String} (hs : storedOf (completedIndex config i) = some (x, dsn))
    (hn : x.WithoutNul) : x.Accepted := by
  have hwf := hw.indexes i hi
  cases i with
  | sqlite d =>
    cases hs
    refine ⟨hn.1, hn.2, ?_⟩
    intro q hq
    obtain ⟨q', hq', rfl⟩ := List.mem_map.1 hq
    simp only
    rcases hwf.2.2.2 q' hq' with h | h
    · simp [h]
    · by_cases h0 : q'.collate = ""
      · simp [h0]
      · rw [if_neg h0]
        exact h
  | fts5 d =>
    cases hs
    exact ⟨hn.1, hn.2.1, hn.2.2⟩
  | wildcard d | map d | noop d => cases hs
end

/-- **C117** The program as a whole, with several indexes that may share databases: if one of the SQLite or full-text indexes of the configuration cannot be built and its database has nothing of it yet,
the program does not start, whatever the machine, the data and the order in which the indexes are opened. -/
theorem C117_start (config : ConfigLib) (p : ParsedConfig) (c c' : Config) (hload : loadConfig config p = .ok c) (hre : Reordered c c') (hown : OwnPlaces config p)
    (hnul : ∀ i ∈ p.indexes, ∀ x dsn, storedOf (completedIndex config i) = some (x, dsn) → x.WithoutNul) (lib : StartLib) (files : Files) (st : Storage)
    (i : IndexDecl) (hi : i ∈ p.indexes) (x : StoredIndex) (dsn : String) (hstored : storedOf (completedIndex config i) = some (x, dsn)) (hbad : ¬ x.Buildable)
    (hnew : (st.db dsn).table ("rodb_".toList ++ x.name.toList ++ "_metadata".toList) = none) :
    ∀ services, (startOn (lib.onFiles files) st c').1 ≠ .ok services := by
  intro services h
  have hw := (C76_accepted config p).1 ⟨c, hload⟩
  have hx := accepted_of_wellFormed hw hi hstored (hnul i hi x dsn hstored)
  have hmem : ∃ a ∈ c'.indexes, a.2 = completedIndex config i := by
    have hget := ((C77_defaults config p c hload i.name).2.2.1 _).2 ⟨i, .inl ⟨hi, rfl⟩, rfl⟩
    exact ⟨_, hre.indexes.subset (mapGet_mem hget), rfl⟩
  obtain ⟨a, ha, e⟩ := hmem
  refine hbad (startOn_inv (ownPlaces_pairwise hload hre hown) ?_ h a ha x dsn (by rw [e]; exact hstored) (by rw [metadataTable_plain (accepted_noNul hx)]; exact hnew))
  intro b hb y dsn' hy
  rcases indexes_declared hload (hre.indexes.symm.subset hb) with ⟨j, hj, e⟩ | ⟨n, e⟩
  · rw [e] at hy
    exact accepted_of_wellFormed hw hj hy (hnul j hj y dsn' hy)
  · rw [e] at hy
    cases hy

/-- **C117** Starting again does not help: if one of the SQLite or full-text indexes cannot be built and its database had nothing of it at first, then after any starts of the program, with any data files, in any order of
the indexes, killed anywhere or not at all, the program does not start. (What these starts leave in the database is never taken for a finished index.) -/
theorem C117_never (config : ConfigLib) (p : ParsedConfig) (c : Config) (hload : loadConfig config p = .ok c) (hown : OwnPlaces config p) (hnames : PlainNames p) (lib : StartLib)
    (st : Storage) (hplan : PlansPermute st.sql) (runs : List Run) (hruns : ∀ r ∈ runs, Reordered c r.config)
    (i : IndexDecl) (hi : i ∈ p.indexes) (x : StoredIndex) (dsn : String) (hstored : storedOf (completedIndex config i) = some (x, dsn)) (hbad : ¬ x.Buildable)
    (hnew : (st.db dsn).table ("rodb_".toList ++ x.name.toList ++ "_metadata".toList) = none) (files : Files) (c' : Config) (hre : Reordered c c') :
    ∀ services, (startOn (lib.onFiles files) (afterProgramRuns lib st runs) c').1 ≠ .ok services := by
  intro services
  have hallow := allowed_indexes hload hnames
  have hapart := ownPlaces_apart hload hown
  obtain ⟨a, ha, e⟩ : ∃ a ∈ c.indexes, a.2 = completedIndex config i := by
    have hget := ((C77_defaults config p c hload i.name).2.2.1 _).2 ⟨i, .inl ⟨hi, rfl⟩, rfl⟩
    exact ⟨_, mapGet_mem hget, rfl⟩
  have hx : x.Accepted := hallow a ha x dsn (by rw [e]; exact hstored)
  have hs : Undone st x dsn := by
    intro t ht
    rw [metadataTable_plain (accepted_noNul hx), hnew] at ht
    cases ht
  have ha' : ApartFrom c.indexes (completedIndex config i) := by
    rw [← e]
    exact hapart a ha
  obtain ⟨h1, h2⟩ := afterProgramRuns_undone (lib := lib) hallow hx hbad hstored ha' runs st hplan hruns hs
  exact startOn_never (by rw [h1]; exact hplan) (fun b hb => hallow b (hre.indexes.symm.subset hb)) hx hbad hstored (fun b hb => ha' b (hre.indexes.symm.subset hb))
    ⟨a, hre.indexes.subset ha, e⟩ h2 services

/-! ### Concrete cases -/

/-- Names that differ only in the case of letters, and no names at all. -/
example : (newSqlite plainLib (textIndex "a" ["b", "B"]) twoPeople ⟨emptyDb, none⟩).1 ≠ .ok () ∧ (newSqlite plainLib (textIndex "a" []) twoPeople ⟨emptyDb, none⟩).1 ≠ .ok () := by
  refine ⟨fun h => ?_, fun h => ?_⟩
  · have hb := ((C117_sqlite plainLib (textIndex "a" ["b", "B"]) (accepted_textIndex (by unfold NoNul; decide) (by unfold NoNul; decide)) twoPeople).1 h).1.different
    exact absurd (List.pairwise_cons.1 hb).1 (fun h => absurd (h _ (.head _)) (by decide))
  · exact ((C117_sqlite plainLib (textIndex "a" []) (accepted_textIndex (by unfold NoNul; decide) (by unfold NoNul; decide)) twoPeople).1 h).1.some rfl

/-- A tokenizer with arguments, in other letters, and one that does not exist; and an index with it. -/
theorem unknownTokenizer : KnownTokenizer " PORTER ascii".toList ∧ ¬ KnownTokenizer "words".toList := by
  constructor
  · exact ⟨[' '], "PORTER".toList, " ascii".toList, rfl, by simp, .inr ⟨"ascii".toList, rfl⟩, "porter", by simp, by decide⟩
  · rw [← ftsTokenizerOk_iff]
    decide

example : (newFts5 wordLib { wordIndex "a" ["a", "b"] with tokenize := "words" } twoPeople ⟨emptyDb, none⟩).1 ≠ .ok () := by
  intro h
  refine unknownTokenizer.2 ((C117_fts5 wordLib { wordIndex "a" ["a", "b"] with tokenize := "words" } ?_ twoPeople).1 h).1.tokenizer
  exact ⟨by unfold NoNul; decide, by unfold NoNul; decide, by unfold NoNul; decide⟩

/-- The index of `builds_wordIndex` can be built. -/
example : FtsBuildable (wordIndex "a" ["a", "b"]) ∧ Storable twoPeople ["a", "b"] :=
  (C117_fts5 wordLib (wordIndex "a" ["a", "b"]) (accepted_wordIndex (by unfold NoNul; decide) (by unfold NoNul; decide)) twoPeople).1 builds_wordIndex

namespace BuildableExample
/-- The configuration of `RestartExample`, with a tokenizer that does not exist. -/
def parsed : ParsedConfig := { StoredFilesExample.parsed with
  indexes := [.wildcard StoredFilesExample.wildcard, .sqlite StoredFilesExample.sqlite, .fts5 { StoredFilesExample.fts5 with dsn := "in.sqlite", tokenize := "words" }] }

theorem loads : ∃ c, loadConfig ConfigExample.lib parsed = .ok c := by
  have h : (match loadConfig ConfigExample.lib parsed with | .ok _ => true | .error _ => false) = true := by decide +kernel
  cases hc : loadConfig ConfigExample.lib parsed with
  | error e => rw [hc] at h; cases h
  | ok c => exact ⟨c, rfl⟩

theorem own : OwnPlaces ConfigExample.lib parsed := by
  intro i hi j hj
  simp only [parsed, List.mem_cons, List.not_mem_nil, or_false] at hi hj
  rcases hi with rfl | rfl | rfl <;> rcases hj with rfl | rfl | rfl <;> first
    | exact .inl rfl
    | exact .inr ⟨fun _ _ h1 h2 => (by first | (cases h1; done) | (cases h2; done)), fun _ _ h1 h2 => (by first | (cases h1; done) | (cases h2; done) | (cases h1; cases h2; decide))⟩

/-- The configuration is accepted, and the program does not start with it on an empty machine. -/
example : ∃ c, loadConfig ConfigExample.lib parsed = .ok c ∧ ∀ services, (startOn RestartExample.startLib StoredFilesExample.storage c).1 ≠ .ok services := by
  obtain ⟨c, hc⟩ := loads
  refine ⟨c, hc, ?_⟩
  refine C117_start ConfigExample.lib parsed c c hc ⟨.refl _, .refl _, .refl _, .refl _, .refl _⟩ own ?_ (StoredFilesExample.startLib FilesExample.noParsers) FilesExample.machine
    StoredFilesExample.storage (.fts5 { StoredFilesExample.fts5 with dsn := "in.sqlite", tokenize := "words" }) (by simp [parsed]) _ _ rfl ?_ (by rfl)
  · intro i hi x dsn hx
    simp only [parsed, List.mem_cons, List.not_mem_nil, or_false] at hi
    rcases hi with rfl | rfl | rfl <;> cases hx
    · exact ⟨by unfold NoNul; decide, by unfold NoNul; decide⟩
    · exact ⟨by unfold NoNul; decide, by unfold NoNul; decide, by unfold NoNul; decide⟩
  · exact fun h => unknownTokenizer.2 h.tokenizer

/-- Nor does it start when it was started before, once and once killed in the middle. -/
example : ∃ c, loadConfig ConfigExample.lib parsed = .ok c ∧ ∀ services, (startOn RestartExample.startLib (afterProgramRuns (StoredFilesExample.startLib FilesExample.noParsers) StoredFilesExample.storage
    [⟨FilesExample.machine, c, none⟩, ⟨FilesExample.machine, c, some ⟨2, 4, 0⟩⟩]) c).1 ≠ .ok services := by
  obtain ⟨c, hc⟩ := loads
  refine ⟨c, hc, ?_⟩
  refine C117_never ConfigExample.lib parsed c hc own ?_ (StoredFilesExample.startLib FilesExample.noParsers) StoredFilesExample.storage ?_ _ ?_
    (.fts5 { StoredFilesExample.fts5 with dsn := "in.sqlite", tokenize := "words" }) (by simp [parsed]) _ _ rfl ?_ (by rfl) FilesExample.machine c ⟨.refl _, .refl _, .refl _, .refl _, .refl _⟩
  · refine ⟨fun d hd => ?_, fun d hd => ?_⟩ <;>
    · simp only [parsed, List.mem_cons, List.not_mem_nil, or_false] at hd
      rcases hd with h | h | h <;> cases h
      first
        | exact ⟨by unfold NoNul; decide, by unfold NoNul; decide⟩
        | exact ⟨by unfold NoNul; decide, by unfold NoNul; decide, by unfold NoNul; decide⟩
  · exact fun _ _ => List.Perm.refl _
  · intro r hr
    simp only [List.mem_cons, List.not_mem_nil, or_false] at hr
    rcases hr with rfl | rfl <;> exact ⟨.refl _, .refl _, .refl _, .refl _, .refl _⟩
  · exact fun h => unknownTokenizer.2 h.tokenizer
end BuildableExample

end Rodb
