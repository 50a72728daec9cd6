import Verif.Proofs.WildcardCut
import Verif.Proofs.WildcardAccept
/-
  C03 to C13: the wildcard index (pkg/index/wildcard.go, pkg/index/wildcard/*.go).
-/
namespace Rodb
open Spec

/-! ### A concrete index used by the examples -/

namespace WildcardExample

/-- A record with the given position and name; other properties are missing. -/
def person (pos : Int) (name : Bytes) : Rec :=
  { position := pos, get := fun p => if p = "name" then .ok (.str name) else .ok .null, all := .ok [("name", .str name)] }

/-- The texts of `person`. -/
def row (pos : Int) (name : Bytes) : Row := { record := person pos name, text := fun _ => name }

/-- "aba", "Bab", "" at positions 0, 7, 20. -/
def rows : List Row := [row 0 [97,98,97], row 7 [66,97,98], row 20 []]

def input : Input :=
  { name := "people", scan := .ok (rows.map (fun r => .ok r.record)), fetch := fun _ => .error (.err ""),
    size := .ok 30, modTimeNs := .ok 1700000000123456789 }

/-- ASCII lower-casing. -/
def lower (s : Bytes) : Bytes := s.map (fun b => if 65 ≤ b ∧ b ≤ 90 then b + 32 else b)

def cfg : WildcardConfig := { properties := ["name"], ignoreCase := true, bufferSize := 100 }

theorem table : TextTable input cfg.properties rows := by
  refine ⟨rfl, ?_, by decide, ?_, ⟨30, rfl, by decide, by decide⟩, ⟨1700000000123456789, rfl, by decide, by decide⟩⟩
  · intro r hr p hp
    simp only [cfg, List.mem_singleton] at hp
    subst hp
    simp only [rows, List.mem_cons, List.not_mem_nil, or_false] at hr
    rcases hr with rfl | rfl | rfl <;> rfl
  · intro r hr
    simp only [rows, List.mem_cons, List.not_mem_nil, or_false] at hr
    rcases hr with rfl | rfl | rfl <;> (constructor <;> decide)

theorem size : (createIndex lower cfg input (Stream.new [] 0 cfg.bufferSize)).2.streamSize < 2^63 := by decide +kernel

end WildcardExample

/-! ### C03 -/

/-- **C03**, tree nodes: what is read back from the 56 bytes of a node is the node. -/
theorem C03_tree_node_round_trip (n : TreeNode) (h : n.valueOffset < 2^64 ∧ n.valueLength < 2^64 ∧ n.nextSibling < 2^64 ∧
    n.firstChild < 2^64 ∧ n.lastChild < 2^64 ∧ n.firstPosition < 2^64 ∧ n.lastPosition < 2^64) :
    TreeNode.unserialize n.offset n.serialize = n ∧ n.serialize.length = treeNodeSize :=
  ⟨n.unserialize_serialize ⟨h.1, h.2.1, h.2.2.1, h.2.2.2.1, h.2.2.2.2.1, h.2.2.2.2.2.1, h.2.2.2.2.2.2⟩,
    by simp [TreeNode.serialize, length_toBE, treeNodeSize]⟩

/-- **C03**, position cells (the position is a signed 64-bit integer). -/
theorem C03_position_round_trip (n : PosNode) (h : n.next < 2^64) (hp : Int64Range n.position) :
    PosNode.unserialize n.offset n.serialize = n ∧ n.serialize.length = posNodeSize :=
  ⟨n.unserialize_serialize h hp, by simp [PosNode.serialize, length_toBE, posNodeSize]⟩

/-- **C03**, metadata: whatever follows in the file, the metadata written at its start is read back. -/
theorem C03_metadata_round_trip (m : Metadata) (rest : Bytes) (hm : m.magic.length = 19) (hv : m.version < 2^16)
    (ht : Int64Range m.modTime) (hs : Int64Range m.size) (hc : m.roots.length ≤ 2^45) (hr : ∀ o ∈ m.roots, o < 2^64) :
    Metadata.unserialize (m.serialize ++ rest) = .ok m :=
  Metadata.unserialize_serialize m ⟨hm, hv, ht, hs, by simp only [maxSliceLen]; omega, hr⟩ rest

example : TreeNode.unserialize 1000 (TreeNode.serialize ⟨1000, 2^40 + 3, 77, 0, 2^63 - 1, 258, 65536, 9⟩) =
    ⟨1000, 2^40 + 3, 77, 0, 2^63 - 1, 258, 65536, 9⟩ ∧
    PosNode.unserialize 8 (PosNode.serialize ⟨8, -5, 300⟩) = ⟨8, -5, 300⟩ ∧
    Metadata.unserialize (Metadata.serialize ⟨magicBytes, 1, -1, 2^62, true, false, [55, 2^60]⟩ ++ [1,2,3]) =
      .ok ⟨magicBytes, 1, -1, 2^62, true, false, [55, 2^60]⟩ := by decide +kernel

/-! ### C04, C05, C07, C12: what a freshly built index answers -/

private theorem built {lower} {cfg : WildcardConfig} {input : Input} {rows : List Row}
    (hnd : cfg.properties.Nodup) (htab : TextTable input cfg.properties rows)
    (hsize : (createIndex lower cfg input (Stream.new [] 0 cfg.bufferSize)).2.streamSize < 2^63) :
    ∃ size t w, input.size = .ok size ∧ input.modTimeNs = .ok t ∧ Int64Range size ∧ Int64Range t ∧
      newWildcard lower cfg input none = (.ok w, w.stream.file) ∧ w.config = cfg ∧ w.inputName = input.name ∧
      Finished cfg size t (fun p => trieOf (cfg.normalize lower) rows .nil p) w.index w.stream ∧
      (createIndex lower cfg input (Stream.new [] 0 cfg.bufferSize)).2 = w.stream := by
  obtain ⟨size, hs, hsr⟩ := htab.size
  obtain ⟨t, ht, htr⟩ := htab.modTime
  obtain ⟨index, s, h1, h2⟩ := createIndex_spec hnd hs ht htab hsize
  exact ⟨size, t, { config := cfg, inputName := input.name, index := index, stream := s }, hs, ht, hsr, htr,
    by simp only [newWildcard, h1], rfl, rfl, h2, by rw [h1]⟩

/-- **C12** (and C04, C05, C07). For every configuration, every input whose indexed properties are text, and every
query that gives a non-empty text for one or several of the indexed properties, in any order: building
the index succeeds, and the query yields exactly the positions of the records that contain all the
texts, in increasing order (the order of the rows). The only bound is Go's 64-bit file offset. -/
theorem C12_wildcard_conjunction (lower : Bytes → Bytes) (cfg : WildcardConfig) (input : Input) (rows : List Row)
    (hnd : cfg.properties.Nodup) (htab : TextTable input cfg.properties rows)
    (hsize : (createIndex lower cfg input (Stream.new [] 0 cfg.bufferSize)).2.streamSize < 2^63) :
    ∃ w file, newWildcard lower cfg input none = (.ok w, file) ∧
      ∀ query : List (String × Bytes), query ≠ [] →
        (∀ pq ∈ query, pq.1 ∈ cfg.properties ∧ cfg.normalize lower pq.2 ≠ []) →
        w.getRecordPositions lower input.name (textFilters query) =
          .ok ((positionsWhere rows (containsAll (cfg.normalize lower) query)).map .ok) := by
  obtain ⟨size, t, w, hs, ht, hsr, htr, hw, hcfg, hname, hfin, _⟩ := built hnd htab hsize
  refine ⟨w, _, hw, ?_⟩
  intro query hne hq
  have hready := hfin.ready hnd input.name
  subst hcfg
  rw [← hname] at hready ⊢
  exact query_text hready htab.increasing query hne hq

/-- **C04.** Case-sensitive search: byte-exact substring. -/
theorem C04_wildcard_exact (lower : Bytes → Bytes) (cfg : WildcardConfig) (input : Input) (rows : List Row)
    (hnd : cfg.properties.Nodup) (htab : TextTable input cfg.properties rows) (hcase : cfg.ignoreCase = false)
    (hsize : (createIndex lower cfg input (Stream.new [] 0 cfg.bufferSize)).2.streamSize < 2^63) :
    ∃ w file, newWildcard lower cfg input none = (.ok w, file) ∧
      ∀ p ∈ cfg.properties, ∀ q : Bytes, q ≠ [] →
        w.getRecordPositions lower input.name [(p, .str q)] =
          .ok ((positionsWhere rows (fun r => decide (q <:+: r.text p))).map .ok) := by
  obtain ⟨w, file, h1, h2⟩ := C12_wildcard_conjunction lower cfg input rows hnd htab hsize
  refine ⟨w, file, h1, ?_⟩
  intro p hp q hq
  have hn : ∀ s, cfg.normalize lower s = s := by intro s; simp [WildcardConfig.normalize, hcase]
  have := h2 [(p, q)] (by simp) (by simpa [hn] using ⟨hp, hq⟩)
  have hc : containsAll (cfg.normalize lower) [(p, q)] = fun r => decide (q <:+: r.text p) := by
    funext r
    simp [containsAll, hn]
  rw [hc] at this
  exact this

/-- **C07.** Case-insensitive search: the lower-cased value contains the lower-cased query, whatever
lower-casing does. -/
theorem C07_wildcard_ignore_case (lower : Bytes → Bytes) (cfg : WildcardConfig) (input : Input) (rows : List Row)
    (hnd : cfg.properties.Nodup) (htab : TextTable input cfg.properties rows) (hcase : cfg.ignoreCase = true)
    (hsize : (createIndex lower cfg input (Stream.new [] 0 cfg.bufferSize)).2.streamSize < 2^63) :
    ∃ w file, newWildcard lower cfg input none = (.ok w, file) ∧
      ∀ p ∈ cfg.properties, ∀ q : Bytes, lower q ≠ [] →
        w.getRecordPositions lower input.name [(p, .str q)] =
          .ok ((positionsWhere rows (fun r => decide (lower q <:+: lower (r.text p)))).map .ok) := by
  obtain ⟨w, file, h1, h2⟩ := C12_wildcard_conjunction lower cfg input rows hnd htab hsize
  refine ⟨w, file, h1, ?_⟩
  intro p hp q hq
  have hn : ∀ s, cfg.normalize lower s = lower s := by intro s; simp [WildcardConfig.normalize, hcase]
  have := h2 [(p, q)] (by simp) (by simpa [hn] using ⟨hp, hq⟩)
  have hc : containsAll (cfg.normalize lower) [(p, q)] = fun r => decide (lower q <:+: lower (r.text p)) := by
    funext r
    simp [containsAll, hn]
  rw [hc] at this
  exact this

private theorem filterSpec_increasing {props : List String} {norm : Bytes → Bytes} {rows : List Row}
    (hinc : (rows.map Row.pos).Pairwise (· < ·)) : ∀ (filters : GoMap Value) (ls : List (List Int)),
    filterSpec props norm (fun p => trieOf norm rows .nil p) filters = .ok (some ls) →
    ls.length = filters.length ∧ ∀ l ∈ ls, Increasing l := by
  intro filters
  induction filters with
  | nil => intro ls h; cases h; simp
  | cons pf rest ih =>
    intro ls h
    obtain ⟨p, f⟩ := pf
    simp only [filterSpec] at h
    split at h
    · cases h
    · cases f with
      | str q =>
        simp only at h
        split at h
        · cases h
        · rename_i hq
          have hl := (trieOf_lookup norm rows p (norm q) hq hinc).1
          split at h
          · cases h
          · rename_i l hlk
            split at h
            · rename_i ls' hr
              cases h
              obtain ⟨h1, h2⟩ := ih ls' hr
              refine ⟨by simp [h1], ?_⟩
              intro l' hl'
              rcases List.mem_cons.mp hl' with rfl | hl'
              · rw [hlk] at hl
                simp only [Option.getD_some] at hl
                rw [hl]
                exact positionsWhere_increasing hinc _
              · exact h2 l' hl'
            · rename_i hr
              exact absurd h (hr ls)
      | _ => cases h

/-- **C05.** Whatever the filters (several, repeated, unknown, empty, of any type): if the query is
answered, the answer is a strictly increasing list of positions, without error. -/
theorem C05_wildcard_sorted (lower : Bytes → Bytes) (cfg : WildcardConfig) (input : Input) (rows : List Row)
    (hnd : cfg.properties.Nodup) (htab : TextTable input cfg.properties rows)
    (hsize : (createIndex lower cfg input (Stream.new [] 0 cfg.bufferSize)).2.streamSize < 2^63) :
    ∃ w file, newWildcard lower cfg input none = (.ok w, file) ∧
      ∀ inputName filters it, w.getRecordPositions lower inputName filters = .ok it →
        ∃ out : List Int, it = out.map .ok ∧ Increasing out := by
  obtain ⟨size, t, w, hs, ht, hsr, htr, hw, hcfg, hname, hfin, _⟩ := built hnd htab hsize
  refine ⟨w, _, hw, ?_⟩
  intro inputName filters it hit
  have hready := hfin.ready hnd input.name
  subst hcfg
  rw [← hname] at hready
  rw [getRecordPositions_spec hready] at hit
  unfold querySpec at hit
  split at hit
  · cases hit
  · split at hit
    · cases hit
    · rename_i hne
      split at hit
      · cases hit
      · cases hit
        exact ⟨[], rfl, List.Pairwise.nil⟩
      · rename_i ls hls
        cases hit
        obtain ⟨h1, h2⟩ := filterSpec_increasing htab.increasing filters ls hls
        obtain ⟨out, h3, h4, _⟩ := joinIters_sorted ls (by
          intro h
          subst h
          exact hne h1.symm) h2
        exact ⟨out, h3, h4⟩

/-- Non-vacuity of C04, C05, C07, C12 and C08: the example satisfies all hypotheses; "AB" is found in "aba" and
in "Bab", once each, "B" in both, "x" nowhere. -/
example : WildcardExample.cfg.properties.Nodup ∧
    TextTable WildcardExample.input WildcardExample.cfg.properties WildcardExample.rows ∧
    (createIndex WildcardExample.lower WildcardExample.cfg WildcardExample.input (Stream.new [] 0 WildcardExample.cfg.bufferSize)).2.streamSize < 2^63 ∧
    positionsWhere WildcardExample.rows (containsAll (WildcardExample.cfg.normalize WildcardExample.lower) [("name", [65,66])]) = [0,7] ∧
    positionsWhere WildcardExample.rows (containsAll (WildcardExample.cfg.normalize WildcardExample.lower) [("name", [98,97,98])]) = [7] ∧
    positionsWhere WildcardExample.rows (containsAll (WildcardExample.cfg.normalize WildcardExample.lower) [("name", [120])]) = [] := by
  refine ⟨by decide, WildcardExample.table, WildcardExample.size, ?_, ?_, ?_⟩ <;> decide

/-! ### C06 -/

/-- **C06** is false of the code: an empty search text (or one that lower-cases to nothing) never matches
any record. It is the right answer (all records) only when there are no records. -/
theorem C06_empty_query_partial (lower : Bytes → Bytes) (cfg : WildcardConfig) (input : Input) (rows : List Row)
    (hnd : cfg.properties.Nodup) (htab : TextTable input cfg.properties rows)
    (hsize : (createIndex lower cfg input (Stream.new [] 0 cfg.bufferSize)).2.streamSize < 2^63) :
    ∃ w file, newWildcard lower cfg input none = (.ok w, file) ∧
      ∀ p ∈ cfg.properties, ∀ q : Bytes, cfg.normalize lower q = [] →
        w.getRecordPositions lower input.name [(p, .str q)] = .ok [] ∧
        (w.getRecordPositions lower input.name [(p, .str q)] =
          .ok ((positionsWhere rows (containsAll (cfg.normalize lower) [(p, q)])).map .ok) ↔ rows = []) := by
  obtain ⟨size, t, w, hs, ht, hsr, htr, hw, hcfg, hname, hfin, _⟩ := built hnd htab hsize
  refine ⟨w, _, hw, ?_⟩
  intro p hp q hq
  have hready := hfin.ready hnd input.name
  subst hcfg
  rw [← hname] at hready ⊢
  have h1 : w.getRecordPositions lower w.inputName [(p, .str q)] = .ok [] := by
    rw [getRecordPositions_spec hready]
    unfold querySpec
    rw [if_neg (by simp), if_neg (by simp)]
    simp [filterSpec, hp, hq]
  refine ⟨h1, ?_⟩
  rw [h1]
  have hall : positionsWhere rows (containsAll (w.config.normalize lower) [(p, q)]) = rows.map Row.pos := by
    unfold positionsWhere
    rw [List.filter_eq_self.mpr]
    intro r _
    simp [containsAll, hq]
  rw [hall]
  constructor
  · intro h
    cases rows with
    | nil => rfl
    | cons r rows => simp at h
  · rintro rfl; rfl

/-- **C06** is false: three records contain the empty string, none is returned. -/
theorem C06_false : ∃ w file, newWildcard WildcardExample.lower WildcardExample.cfg WildcardExample.input none = (.ok w, file) ∧
    w.getRecordPositions WildcardExample.lower "people" [("name", .str [])] = .ok [] ∧
    positionsWhere WildcardExample.rows (containsAll (WildcardExample.cfg.normalize WildcardExample.lower) [("name", [])]) = [0, 7, 20] := by
  obtain ⟨w, file, h1, h2⟩ := C06_empty_query_partial _ _ _ _ (by decide) WildcardExample.table WildcardExample.size
  exact ⟨w, file, h1, (h2 "name" (by decide) [] (by decide)).1, by decide⟩

/-! ### C08 -/

/-- **C08.** Build the index, then open the file that the build left, with the same configuration and an
input of the same name and size and a modification time in the same second: opening succeeds, leaves the
file alone, and every query, valid or not, is answered as by the process that built the index. -/
theorem C08_reload_same_answers (lower : Bytes → Bytes) (cfg : WildcardConfig) (input input' : Input) (rows : List Row)
    (hnd : cfg.properties.Nodup) (htab : TextTable input cfg.properties rows)
    (hsize : (createIndex lower cfg input (Stream.new [] 0 cfg.bufferSize)).2.streamSize < 2^63)
    (hcount : cfg.properties.length ≤ 2^45)
    (hname : input'.name = input.name) (hsame : input'.size = input.size)
    (htime : ∃ t t', input.modTimeNs = .ok t ∧ input'.modTimeNs = .ok t' ∧ t' / 10^9 = t / 10^9) :
    ∃ w file w', newWildcard lower cfg input none = (.ok w, file) ∧
      newWildcard lower cfg input' (some file) = (.ok w', file) ∧
      ∀ inputName filters, w'.getRecordPositions lower inputName filters = w.getRecordPositions lower inputName filters := by
  obtain ⟨size, t, w, hs, ht, hsr, htr, hw, hcfg, hwn, hfin, _⟩ := built hnd htab hsize
  obtain ⟨t1, t', h1, h2, h3⟩ := htime
  have : t1 = t := by rw [ht] at h1; cases h1; rfl
  subst this
  have hl := loadIndex_spec hfin hnd hsr htr (by simp only [maxSliceLen]; omega) (input := input') (hsame.trans hs) h2
    (by simpa [unixSeconds] using h3)
  have hready := hfin.ready hnd input.name
  have hready' := hfin.ready_reload hnd input'.name cfg.bufferSize
  refine ⟨w, _, _, hw, by simp only [newWildcard, hl]; rfl, ?_⟩
  intro inputName filters
  subst hcfg
  rw [← hwn] at hready
  rw [getRecordPositions_spec hready, getRecordPositions_spec hready', hname, hwn]

/-! ### C09 -/

/-- **C09**, the part that holds of every crash. The build of an index is a sequence of file writes
(`log`). Stop it after any number `k` of them, the next one being cut to its first `j` bytes. The next
start then refuses the file, or accepts it and answers every query as the full index would, or with an
error, or with the right answer cut short by an error: never a silently wrong or incomplete answer.
What is missing for the full C09 is "exactly the answers": see `C09_false`. -/
theorem C09_crash_never_silently_wrong_partial (lower : Bytes → Bytes) (cfg : WildcardConfig) (input : Input) (rows : List Row)
    (hnd : cfg.properties.Nodup) (htab : TextTable input cfg.properties rows)
    (hsize : (createIndex lower cfg input (Stream.new [] 0 cfg.bufferSize)).2.streamSize < 2^63)
    (hcount : cfg.properties.length ≤ 2^45) :
    ∃ w file, newWildcard lower cfg input none = (.ok w, file) ∧
      ∀ (input' : Input) (k j : Nat), input'.name = input.name →
        let crashed := crashFile (createIndex lower cfg input (Stream.new [] 0 cfg.bufferSize)).2.log k j
        (∃ e, newWildcard lower cfg input' (some crashed) = (.error e, crashed)) ∨
        ∃ w', newWildcard lower cfg input' (some crashed) = (.ok w', crashed) ∧
          ∀ inputName filters,
            w'.getRecordPositions lower inputName filters = w.getRecordPositions lower inputName filters ∨
            (∃ e, w'.getRecordPositions lower inputName filters = .error (.err e)) ∨
            ∃ full n e, w.getRecordPositions lower inputName filters = .ok full ∧
              w'.getRecordPositions lower inputName filters = .ok (full.take n ++ [.error (.err e)]) := by
  obtain ⟨size, t, w, hs, ht, hsr, htr, hw, hcfg, hwn, hfin, hst⟩ := built hnd htab hsize
  refine ⟨w, _, hw, ?_⟩
  intro input' k j hname crashed
  have hro := newWildcard_readOnly lower cfg input' crashed
  have hbad : (∃ e, (newWildcard lower cfg input' (some crashed)).1 = .error e) →
      ∃ e, newWildcard lower cfg input' (some crashed) = (.error e, crashed) := by
    rintro ⟨e, he⟩
    exact ⟨e, Prod.ext he hro⟩
  rcases createIndex_log hnd hs ht htab hsize k j with h0 | hpre
  · exact Or.inl (hbad (newWildcard_flag h0))
  · rw [hst] at hpre
    have hcr : crashed = crashFile w.stream.log k j := by
      show crashFile _ k j = _
      rw [hst]
    rcases cut_load hfin hnd hsr htr (by simp only [maxSliceLen]; omega) (input := input') hpre with ⟨e, he⟩ | hload
    · left
      apply hbad
      rw [hcr, newWildcard_load, he]
      exact ⟨e, rfl⟩
    · right
      rw [hcr]
      refine ⟨_, by simp only [newWildcard, hload]; rfl, ?_⟩
      intro inputName filters
      have hcut := cut_query (lower := lower) (w' := { config := cfg, inputName := input'.name, index := w.index, stream := Stream.new (crashFile w.stream.log k j) (crashFile w.stream.log k j).length cfg.bufferSize })
        (w := w) (Stream.new_inv _ _) hfin.inv (by show _ ++ [] <+: _; rw [List.append_nil]; exact hpre) hcfg.symm rfl (hname.trans hwn.symm) inputName filters
      rcases hcut with h | h | ⟨it', it, h1, h2, h3⟩
      · exact Or.inl h
      · exact Or.inr (Or.inl h)
      · rcases h3.spec with h | ⟨n, e, h⟩
        · subst h; exact Or.inl (h1.trans h2.symm)
        · subst h; exact Or.inr (Or.inr ⟨it, n, e, h2, h1⟩)

/-- What the example index answers, if it could be opened. -/
def WildcardExample.answers (r : Res Wildcard) (filters : GoMap Value) : Option (Res PIter) :=
  match r with
  | .ok w => some (w.getRecordPositions WildcardExample.lower "people" filters)
  | .error _ => none

/-- **C09** is false: wildcard.go:127-132 writes "completed" to the file before the rest of the buffer. If the
process dies in between (here after 23 of the 24 writes), the file is accepted, but searching "bab" ends
with an error, while the full index finds the record at position 7. The buffer of the example is 100
bytes instead of 10000, which only makes the example smaller. -/
theorem C09_false :
    let log := (createIndex WildcardExample.lower WildcardExample.cfg WildcardExample.input (Stream.new [] 0 WildcardExample.cfg.bufferSize)).2.log
    let reopened := (newWildcard WildcardExample.lower WildcardExample.cfg WildcardExample.input (some (crashFile log 23 0))).1
    let full := (newWildcard WildcardExample.lower WildcardExample.cfg WildcardExample.input none).1
    log.length = 24 ∧
    WildcardExample.answers full [("name", .str [98,97,98])] = some (.ok [.ok 7]) ∧
    WildcardExample.answers reopened [("name", .str [98,97,98])] = some (.error (.err "Expected to read bytes from buffer")) := by
  decide +kernel

/-! ### C10 -/

/-- **C10**, the checks on an arbitrary file. A file is accepted only if it starts with the header of a
wildcard index of the current version, marked as completed, recording the current size of the input,
its modification time to the second, the same case sensitivity, and as many properties as configured.
Missing for the full C10: the names of the properties and the contents of the input, see `C10_false`. -/
theorem C10_accepted_header_partial (lower : Bytes → Bytes) (cfg : WildcardConfig) (input : Input) (file : Bytes)
    (w : Wildcard) (h : (newWildcard lower cfg input (some file)).1 = .ok w) :
    ∃ m t, Metadata.unserialize file = .ok m ∧ m.magic = magicBytes ∧ m.version = 1 ∧ m.completed = true ∧
      input.size = .ok m.size ∧ input.modTimeNs = .ok t ∧ m.modTime = t / 10^9 ∧ m.ignoreCase = cfg.ignoreCase ∧
      m.roots.length = cfg.properties.length := by
  rw [newWildcard_load, loadIndex_new] at h
  cases hm : Metadata.unserialize file with
  | error e => rw [hm] at h; cases h
  | ok m =>
    rw [hm] at h
    simp only at h
    cases hv : m.assertValid (cfg.metadataInput input) with
    | error e => rw [hv] at h; cases h
    | ok u =>
      cases u
      obtain ⟨h1, h2, ⟨t, h3, h4⟩, h5, h6, h7, h8⟩ := assertValid_ok.mp hv
      exact ⟨m, t, rfl, h2, h1, h7, h5, h3, by simpa [unixSeconds] using h4, h6, h8⟩

/-- **C10**, for files made by a completed build: exactly when the next start accepts them. The size, the
second of the modification time, the case sensitivity and the number of properties are compared,
nothing else. -/
theorem C10_accepts_iff_partial (lower : Bytes → Bytes) (cfg cfg' : WildcardConfig) (input input' : Input) (rows : List Row)
    (hnd : cfg.properties.Nodup) (hnd' : cfg'.properties.Nodup) (htab : TextTable input cfg.properties rows)
    (hsize : (createIndex lower cfg input (Stream.new [] 0 cfg.bufferSize)).2.streamSize < 2^63)
    (hcount : cfg.properties.length ≤ 2^45) :
    ∃ w file, newWildcard lower cfg input none = (.ok w, file) ∧
      ((∃ w', newWildcard lower cfg' input' (some file) = (.ok w', file)) ↔
        (∃ n, input.size = .ok n ∧ input'.size = .ok n) ∧
        (∃ t t', input.modTimeNs = .ok t ∧ input'.modTimeNs = .ok t' ∧ t' / 10^9 = t / 10^9) ∧
        cfg'.ignoreCase = cfg.ignoreCase ∧ cfg'.properties.length = cfg.properties.length) := by
  obtain ⟨size, t, w, hs, ht, hsr, htr, hw, hcfg, hwn, hfin, _⟩ := built hnd htab hsize
  refine ⟨w, _, hw, ?_, ?_⟩
  · rintro ⟨w', h⟩
    obtain ⟨m, t', hm, _, _, _, h5, h6, h7, h8, h9⟩ := C10_accepted_header_partial lower cfg' input' _ w' (congrArg (·.1) h)
    obtain ⟨roots, hr, hu⟩ := hfin.unserialize hsr htr (by simp only [maxSliceLen]; omega)
    rw [hu] at hm
    cases hm
    exact ⟨⟨size, hs, h5⟩, ⟨t, t', ht, h6, by simpa [buildMeta, unixSeconds] using h7.symm⟩, h8.symm, by rw [← hr, ← h9]; rfl⟩
  · rintro ⟨⟨n, h1, h2⟩, ⟨t1, t', h3, h4, h5⟩, h6, h7⟩
    obtain ⟨T', index', hfin'⟩ := hfin.rename h7 h6 hnd'
    rw [hs] at h1
    cases h1
    rw [ht] at h3
    cases h3
    have hl := loadIndex_spec hfin' hnd' hsr htr (by simp only [maxSliceLen]; omega) (input := input') h2 h4
      (by simpa [unixSeconds] using h5)
    exact ⟨_, by simp only [newWildcard, hl]; rfl⟩

example : WildcardExample.cfg.properties.length ≤ 2^45 := by decide

namespace WildcardExample
/-- A record with a first and a last name. -/
def named (first last : Bytes) : Rec :=
  { position := 0, get := fun p => if p = "first" then .ok (.str first) else if p = "last" then .ok (.str last) else .ok .null,
    all := .ok [] }
/-- One record, "x" "y". -/
def people : Input :=
  { name := "people", scan := .ok [.ok (named [120] [121])], fetch := fun _ => .error (.err ""),
    size := .ok 30, modTimeNs := .ok 1700000000123456789 }
/-- Another content of the same size, 0.7 seconds later: "z" "y". -/
def changed : Input :=
  { people with scan := .ok [.ok (named [122] [121])], modTimeNs := .ok 1700000000823456789 }
def firstLast : WildcardConfig := { properties := ["first", "last"], ignoreCase := false, bufferSize := 100 }
def lastFirst : WildcardConfig := { properties := ["last", "first"], ignoreCase := false, bufferSize := 100 }
end WildcardExample

/-- **C10** is false. (1) With the two properties configured in the other order, the old file is accepted and
searching the last name "x" finds the record whose *first* name is "x". (2) After a change of the input that
keeps its size, within the same second, the old file is accepted and still finds the old value. -/
theorem C10_false :
    let file := (newWildcard WildcardExample.lower WildcardExample.firstLast WildcardExample.people none).2
    WildcardExample.answers (newWildcard WildcardExample.lower WildcardExample.lastFirst WildcardExample.people (some file)).1
      [("last", .str [120])] = some (.ok [.ok 0]) ∧
    WildcardExample.answers (newWildcard WildcardExample.lower WildcardExample.lastFirst WildcardExample.people none).1
      [("last", .str [120])] = some (.ok []) ∧
    WildcardExample.answers (newWildcard WildcardExample.lower WildcardExample.firstLast WildcardExample.changed (some file)).1
      [("first", .str [120])] = some (.ok [.ok 0]) ∧
    WildcardExample.answers (newWildcard WildcardExample.lower WildcardExample.firstLast WildcardExample.changed none).1
      [("first", .str [120])] = some (.ok []) := by
  decide +kernel

/-! ### C11 -/

/-- **C11**, the part that holds. Opening an arbitrary file of at least 56 bytes (the size of a node) whose
header announces between 0 and 2^45 properties, or a file too short to have a header, succeeds or ends
with an ordinary error, and does not change the file. Missing for the full C11: see `C11_false`. -/
theorem C11_open_arbitrary_file_partial (lower : Bytes → Bytes) (cfg : WildcardConfig) (input : Input) (file : Bytes)
    (hsize : ∀ e, input.size = .error e → IsError e) (htime : ∀ e, input.modTimeNs = .error e → IsError e)
    (hfile : file.length < 47 ∨ (56 ≤ file.length ∧ 0 ≤ rootCount file ∧ rootCount file ≤ 2^45)) :
    (∃ w, newWildcard lower cfg input (some file) = (.ok w, file)) ∨
    ∃ msg, newWildcard lower cfg input (some file) = (.error (.err msg), file) := by
  have hro := newWildcard_readOnly lower cfg input file
  cases hx : newWildcard lower cfg input (some file) with
  | mk r f =>
    rw [hx] at hro
    simp only at hro
    subst hro
    cases r with
    | ok w => exact Or.inl ⟨w, rfl⟩
    | error e =>
      right
      suffices IsError e by
        obtain ⟨m, rfl⟩ := this
        exact ⟨m, rfl⟩
      have h := newWildcard_load lower cfg input f
      rw [hx, loadIndex_new] at h
      cases hm : Metadata.unserialize f with
      | error e' =>
        rw [hm] at h
        cases h
        refine unserialize_fails hm ?_
        intro h47
        rcases hfile with h | h
        · omega
        · exact h.2
      | ok m =>
        rw [hm] at h
        simp only at h
        have hlong : 56 ≤ f.length := by
          rcases hfile with h | h
          · rw [unserialize_short h] at hm
            cases hm
          · exact h.1
        cases hv : m.assertValid (cfg.metadataInput input) with
        | error e' =>
          rw [hv] at h
          cases h
          exact assertValid_fails hv hsize htime
        | ok u =>
          cases u
          rw [hv] at h
          simp only at h
          have hlen := (assertValid_ok.mp hv).2.2.2.2.2.2
          cases hl : (loadRoots m cfg.properties 0 [] (Stream.new f f.length cfg.bufferSize)).1 with
          | ok x => rw [hl] at h; cases h
          | error e' =>
            rw [hl] at h
            cases h
            exact loadRoots_fails (Stream.new_inv _ _) hlong (by rw [hlen]; simp [WildcardConfig.metadataInput]) hl

/-- Non-vacuity: the file of the example index satisfies the hypothesis; so does a damaged one. -/
example : let file := (newWildcard WildcardExample.lower WildcardExample.cfg WildcardExample.input none).2
    56 ≤ file.length ∧ rootCount file = 1 ∧ 56 ≤ (file.set 50 200).length ∧ rootCount (file.set 50 200) = 1 := by decide +kernel

/-- **C11** is false. A header announcing -1 properties makes opening panic; so does a 55-byte file whose root
offset is 2^63-1. A header whose root offset is 0 is accepted, and then every search panics. -/
theorem C11_false :
    let header (count root : Nat) : Bytes := magicBytes ++ toBE 2 1 ++ toBE 8 1700000000 ++ toBE 8 30 ++ [1] ++ [1] ++ toBE 8 count ++ toBE 8 root
    (match (newWildcard WildcardExample.lower WildcardExample.cfg WildcardExample.input (some (header (2^64-1) 0))).1 with
      | .error (.panic _) => True | _ => False) ∧
    (match (newWildcard WildcardExample.lower WildcardExample.cfg WildcardExample.input (some (header 1 (2^63-1)))).1 with
      | .error (.panic _) => True | _ => False) ∧
    WildcardExample.answers (newWildcard WildcardExample.lower WildcardExample.cfg WildcardExample.input (some (header 1 0))).1
      [("name", .str [97])] = some (.error (.panic "nil pointer dereference")) := by
  refine ⟨trivial, trivial, by decide +kernel⟩

/-! ### C13 -/

/-- **C13.** If some record of the input has a value that is not a string (null, number, boolean, array or object)
in an indexed property, building the index ends with an ordinary error. Whenever the process stops during
or after this build (after any number `k` of file writes and `j` bytes of the next), the next start
refuses the file. Failures of the input itself are assumed to be ordinary errors. -/
theorem C13_not_text_fails (lower : Bytes → Bytes) (cfg : WildcardConfig) (input : Input) (records : List (Res Rec))
    (hnd : cfg.properties.Nodup) (hin : InputFails IsError input cfg.properties) (hpos : PositionsFit input)
    (hsize : (createIndex lower cfg input (Stream.new [] 0 cfg.bufferSize)).2.streamSize < 2^63)
    (hscan : input.scan = .ok records)
    (hbad : ∃ r p v, .ok r ∈ records ∧ p ∈ cfg.properties ∧ r.get p = .ok v ∧ ∀ text, v ≠ .str text) :
    ∃ msg file, newWildcard lower cfg input none = (.error (.err msg), file) ∧
      (∀ input', ∃ e, newWildcard lower cfg input' (some file) = (.error e, file)) ∧
      ∀ k j, let crashed := crashFile (createIndex lower cfg input (Stream.new [] 0 cfg.bufferSize)).2.log k j
        ∀ input', ∃ e, newWildcard lower cfg input' (some crashed) = (.error e, crashed) := by
  obtain ⟨r, p, v, h1, h2, h3, h4⟩ := hbad
  obtain ⟨m, s, hc, hf, hfl⟩ := createIndex_fails (lower := lower) hnd hin hpos hsize (by
    intro x hx
    obtain ⟨b, hb⟩ := createAndFill_str hx hscan r h1 p h2
    rw [h3] at hb
    cases hb
    exact h4 b rfl)
  refine ⟨m, s.file, by simp only [newWildcard, hc], ?_, ?_⟩
  · intro input'
    apply newWildcard_refused
    apply newWildcard_flag
    have := hfl s.log.length 0
    unfold crashFile at this
    rw [List.getElem?_eq_none (by omega), List.take_length] at this
    rw [hf]
    exact this
  · intro k j crashed input'
    apply newWildcard_refused
    apply newWildcard_flag
    show flag (crashFile _ k j) = 0
    rw [hc]
    exact hfl k j

namespace WildcardExample
/-- The example, with a last record whose name is missing. -/
def withNull : Input :=
  { input with scan := .ok (rows.map (fun r => .ok r.record) ++ [.ok { person 30 [] with get := fun _ => .ok .null }]) }
end WildcardExample

/-- Non-vacuity of C13: the first three records are indexed, the fourth has a null. -/
example : (createIndex WildcardExample.lower WildcardExample.cfg WildcardExample.withNull (Stream.new [] 0 WildcardExample.cfg.bufferSize)).2.streamSize < 2^63 ∧
    InputFails IsError WildcardExample.withNull WildcardExample.cfg.properties ∧ PositionsFit WildcardExample.withNull := by
  refine ⟨by decide +kernel, ⟨?_, ?_, ?_, ?_, ?_⟩, ?_⟩
  · intro e h; cases h
  · intro e h; cases h
  · intro e h; cases h
  · intro rs h e he
    cases h
    simp [WildcardExample.rows] at he
  · intro rs h r hr p hp e he
    cases h
    simp only [WildcardExample.cfg, List.mem_singleton] at hp
    subst hp
    simp only [WildcardExample.rows, List.map_cons, List.map_nil, List.cons_append, List.nil_append, List.mem_cons, List.not_mem_nil, or_false] at hr
    rcases hr with h | h | h | h <;> cases h <;> cases he
  · intro rs h r hr
    cases h
    simp only [WildcardExample.rows, List.map_cons, List.map_nil, List.cons_append, List.nil_append, List.mem_cons, List.not_mem_nil, or_false] at hr
    rcases hr with h | h | h | h <;> cases h <;> (constructor <;> decide)

end Rodb
