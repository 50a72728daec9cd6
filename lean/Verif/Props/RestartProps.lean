import Verif.Proofs.Changed
import Verif.Props.ProgramProps
import Verif.Spec.Earlier
/-
  C112: starting the program again.
-/
namespace Rodb
open Spec

/-! ### The disk of a configuration -/

theorem withColumns_storage {lib : StartLib} {files : Files} {st : Storage} {x e : InputDecl} :
    WithColumns ((lib.onStorage st).onFiles files) x e ↔ WithColumns (lib.onFiles files) x e := by
  cases x <;> exact Iff.rfl

theorem withColumns_unique {lib : StartLib} {x e e' : InputDecl} (h : WithColumns lib x e) (h' : WithColumns lib x e') : e = e' := by
  cases x with
  | csv d =>
    simp only [WithColumns] at h h'
    split at h
    · rename_i ha
      rw [if_pos ha] at h'
      obtain ⟨row, h1, _, rfl⟩ := h
      obtain ⟨row', h2, _, rfl⟩ := h'
      rw [h1] at h2
      cases h2
      rfl
    · rename_i ha
      rw [if_neg ha] at h'
      rw [h, h']
  | json d => rw [show e = _ from h, show e' = _ from h']
  | xml d => rw [show e = _ from h, show e' = _ from h']

section
variable {config : ConfigLib} {lib : StartLib} {files : Files} {p : ParsedConfig} {c c' : Config}

/-- The inputs of a start are those of the declarations. -/
theorem inputs_declared (hload : loadConfig config p = .ok c) (hre : Reordered c c') {texts : GoMap TextParser} {inputs : GoMap Input}
    (h1 : instantiateMap (ParserDecl.instantiate (lib.onFiles files)) c'.parsers = .ok texts) (h2 : instantiateMap (InputDecl.instantiate (lib.onFiles files) texts) c'.inputs = .ok inputs) :
    ParsersRun (lib.onFiles files) p texts (parseFunctions (lib.onFiles files) texts) ∧
    (∀ n input, findInput inputs n = .ok input → ∃ x ∈ p.inputs, x.name = n) ∧
    ∀ x ∈ p.inputs, ∃ e input, findInput inputs x.name = .ok input ∧ WithColumns (lib.onFiles files) (completedInput x) e ∧
      openInput files e (declaredTypes p) (parseFunctions (lib.onFiles files) texts) = .ok input := by
  obtain ⟨_, ⟨k1, _⟩, ⟨k2, _⟩, _⟩ := loadConfig_ok hload
  have e1 := mapGet_perm hre.parsers k1
  have e2 := mapGet_perm hre.inputs k2
  have hd := C77_defaults config p c hload
  refine ⟨⟨?_, rfl⟩, ?_, ?_⟩
  · intro n x hx
    have := ((hd n).1 _).2 ⟨x, hx, rfl⟩
    rw [e1] at this
    obtain ⟨t, ht, hf⟩ := instantiateMap_get h1 this
    exact ⟨t, ht, ParserDecl.instantiate_runs hf⟩
  · intro n input hi
    obtain ⟨x, hx, _⟩ := instantiateMap_name h2 (findInput_ok.1 hi)
    rw [← e2] at hx
    obtain ⟨y, hy, e, _⟩ := ((hd n).2.1 _).1 hx
    exact ⟨y, hy, e⟩
  · intro x hx
    have := ((hd x.name).2.1 _).2 ⟨x, hx, rfl, rfl⟩
    rw [e2] at this
    obtain ⟨input, hi, hf⟩ := instantiateMap_get h2 this
    obtain ⟨d, hd', hin⟩ := InputDecl.instantiate_runs hf
    rw [parserTypes_declared hload (fun n => e1 (k := n)) h1] at hin
    exact ⟨d, input, findInput_ok.2 hi, hd', hin⟩

/-- The indexes of a start are those of the declarations, and the full scan. -/
theorem indexes_declared (hload : loadConfig config p = .ok c) {a : String × IndexDecl} (ha : a ∈ c.indexes) :
    (∃ i ∈ p.indexes, a.2 = completedIndex config i) ∨ ∃ n, a.2 = .noop n := by
  obtain ⟨_, _, _, ⟨k3, _⟩, _⟩ := loadConfig_ok hload
  have hget := mapGet_nodup_mem k3 (k := a.1) (v := a.2) ha
  obtain ⟨i, hi, e⟩ := ((C77_defaults config p c hload a.1).2.2.1 _).1 hget
  rcases hi with ⟨h, _⟩ | ⟨_, h, _⟩
  · exact .inl ⟨i, h, e⟩
  · rw [List.mem_singleton.1 h] at e
    exact .inr ⟨_, e⟩

theorem keptApart_noop {n : String} (i : IndexDecl) : KeptApart (.noop n) i ∧ KeptApart i (.noop n) :=
  ⟨⟨fun _ _ h => (by cases h), fun _ _ h => (by cases h)⟩, ⟨fun _ _ _ h => (by cases h), fun _ _ _ h => (by cases h)⟩⟩

theorem ownPlaces_apart (hload : loadConfig config p = .ok c) (hown : OwnPlaces config p) : ∀ a ∈ c.indexes, ApartFrom c.indexes a.2 := by
  intro a ha b hb
  rcases indexes_declared hload ha with ⟨i, hi, e⟩ | ⟨n, e⟩
  · rcases indexes_declared hload hb with ⟨j, hj, e'⟩ | ⟨n, e'⟩
    · rcases hown j hj i hi with h | h
      · exact .inl (by rw [e, e', h])
      · exact .inr (by rw [e, e']; exact h)
    · exact .inr (by rw [e']; exact (keptApart_noop _).1)
  · exact .inr (by rw [e]; exact (keptApart_noop _).2)

/-- The disk for the files is the disk that the indexes need. -/
theorem storedOn_disk (hw : WellFormed config p) {functions : GoMap (Bytes → Res Value)} {inputs : GoMap Input}
    (hin : (∀ n input, findInput inputs n = .ok input → ∃ x ∈ p.inputs, x.name = n) ∧
      ∀ x ∈ p.inputs, ∃ e input, findInput inputs x.name = .ok input ∧ WithColumns (lib.onFiles files) (completedInput x) e ∧ openInput files e (declaredTypes p) functions = .ok input)
    {parseFloat : Bytes → Res GoFloat} {asked : String → List String} {tables : String → List (GoMap Value)} {st : Storage}
    (hdata : ∀ x ∈ p.inputs, FileContent files parseFloat p functions x (asked x.name) (tables x.name))
    (hstored : ∀ x ∈ p.inputs, StoredOn config lib files st p functions x (asked x.name) (tables x.name)) : ∀ i ∈ p.indexes, DiskOk inputs st (completedIndex config i) := by
  intro i hi input hf
  obtain ⟨x, hx, hname⟩ := hin.1 _ _ hf
  obtain ⟨e, input', h1, h2, h3⟩ := hin.2 x hx
  rw [hname, hf] at h1
  cases h1
  have hwf := hw.indexes i hi
  cases i with
  | wildcard d =>
    refine ⟨?_, fun _ _ h => (by cases h)⟩
    intro d' hd'
    cases hd'
    obtain ⟨⟨records, hrec⟩, _⟩ := (hdata x hx).records_of h2 hw hx
    have hon := (hstored x hx).wildcard d hi hname.symm e input h2 h3
    exact ⟨hwf.2.2.2, records, hrec.textTable (st := st) (d := { d with ignoreCase := some (d.ignoreCase.getD false) }) h2 h3 ⟨hon.asked, hon.texts, hon.length, hon.time, hon.small, hon.count, hon.file⟩, hon.small, hon.count, hon.file⟩
  | sqlite d =>
    refine ⟨fun _ h => (by cases h), ?_⟩
    intro y dsn hy
    cases hy
    have hs := ((hstored x hx).sqlite d hi hname.symm).2 e input h2 h3
    refine ⟨hs, hs.name, fun q hq => hs.properties q.name (List.mem_map_of_mem hq), ?_⟩
    intro q hq
    obtain ⟨q', hq', rfl⟩ := List.mem_map.1 hq
    simp only
    rcases hwf.2.2.2 q' hq' with h | h
    · simp [h]
    · by_cases h0 : q'.collate = ""
      · simp [h0]
      · rw [if_neg h0]
        exact h
  | fts5 d =>
    refine ⟨fun _ h => (by cases h), ?_⟩
    intro y dsn hy
    cases hy
    have hs := ((hstored x hx).fts5 d hi hname.symm).2.2 e input h2 h3
    exact ⟨hs, hs.name, hs.properties, hs.tokenize _ rfl⟩
  | map d => exact ⟨fun _ h => (by cases h), fun _ _ h => (by cases h)⟩
  | noop d => exact ⟨fun _ h => (by cases h), fun _ _ h => (by cases h)⟩

/-- And the other way round: if the disk is still what the indexes need, it is still the disk for the files. -/
theorem storedOn_kept {functions : GoMap (Bytes → Res Value)} {inputs : GoMap Input} {x : InputDecl}
    (hin : ∃ e input, findInput inputs x.name = .ok input ∧ WithColumns (lib.onFiles files) (completedInput x) e ∧ openInput files e (declaredTypes p) functions = .ok input)
    {asked : List String} {objects : List (GoMap Value)} {st st' : Storage} (hstored : StoredOn config lib files st p functions x asked objects)
    (hsql : st'.sql = st.sql) (hdisk : ∀ i ∈ p.indexes, DiskOk inputs st' (completedIndex config i)) : StoredOn config (lib.onStorage st') files st' p functions x asked objects := by
  obtain ⟨e₀, input₀, h1, h2, h3⟩ := hin
  have same : ∀ e input, WithColumns ((lib.onStorage st').onFiles files) (completedInput x) e → openInput files e (declaredTypes p) functions = .ok input → input = input₀ := by
    intro e input he h
    rw [withColumns_unique (withColumns_storage.1 he) h2, h3] at h
    cases h
    rfl
  constructor
  · intro d hd hx e input he h
    have hold := hstored.wildcard d hd hx e input (withColumns_storage.1 he) h
    cases same e input he h
    have hnew := (hdisk _ hd input₀ (by rw [show indexInput (completedIndex config (.wildcard d)) = d.input from rfl, hx]; exact h1)).wildcard _ rfl
    obtain ⟨_, records, hw⟩ := hnew
    exact ⟨hold.asked, hold.texts, hold.length, hold.time, hw.small, hold.count, hw.file⟩
  · intro d hd hx
    refine ⟨by rw [hsql]; exact (hstored.sqlite d hd hx).1, ?_⟩
    intro e input he h
    cases same e input he h
    exact ((hdisk _ hd input₀ (by rw [show indexInput (completedIndex config (.sqlite d)) = d.input from rfl, hx]; exact h1)).stored _ _ rfl).1
  · intro d hd hx
    refine ⟨by rw [hsql]; exact (hstored.fts5 d hd hx).1, (hstored.fts5 d hd hx).2.1, ?_⟩
    intro e input he h
    cases same e input he h
    exact ((hdisk _ hd input₀ (by rw [show indexInput (completedIndex config (.fts5 d)) = d.input from rfl, hx]; exact h1)).stored _ _ rfl).1

/-- What the indexes find does not depend on what is on the disk. -/
theorem foundIn_storage {st st' : Storage} (hlower : st'.lower = st.lower) (hsql : st'.sql = st.sql) : foundIn config st' p = foundIn config st p := by
  funext index property v o
  unfold foundIn FoundIn
  rw [hlower, hsql]

theorem askable_storage {st st' : Storage} (hlower : st'.lower = st.lower) : Askable config st' p = Askable config st p := by
  funext index property v
  unfold Askable findable
  rw [hlower]

/-- The parsers and inputs of a start that succeeds. -/
theorem startOn_stages {st st' : Storage} {running : GoMap (String × List Route)} (hstart : startOn (lib.onFiles files) st c' = (.ok running, st')) :
    ∃ texts inputs, instantiateMap (ParserDecl.instantiate (lib.onFiles files)) c'.parsers = .ok texts ∧ instantiateMap (InputDecl.instantiate (lib.onFiles files) texts) c'.inputs = .ok inputs := by
  cases h1 : instantiateMap (ParserDecl.instantiate (lib.onFiles files)) c'.parsers with
  | error e =>
    simp only [startOn, h1, bind, Except.bind] at hstart
    cases hstart
  | ok texts =>
    cases h2 : instantiateMap (InputDecl.instantiate (lib.onFiles files) texts) c'.inputs with
    | error e =>
      simp only [startOn, h1, h2, bind, Except.bind] at hstart
      cases hstart
    | ok inputs => exact ⟨texts, inputs, rfl, h2⟩

theorem inputPath_columns {l : StartLib} {x y : InputDecl} (h : WithColumns l (completedInput x) y) : inputPath y = inputPath x := by
  cases x with
  | csv d =>
    simp only [completedInput, WithColumns] at h
    split at h
    · obtain ⟨_, _, _, rfl⟩ := h
      rfl
    · rw [h]
      rfl
  | json d => rw [show y = _ from h]; rfl
  | xml d => rw [show y = _ from h]; rfl

/-- The records of an input depend on the content of its file only. -/
theorem scan_same (hw : WellFormed config p) {functions : GoMap (Bytes → Res Value)} {x : InputDecl} (hx : x ∈ p.inputs) {parseFloat : Bytes → Res GoFloat} {asked : List String}
    {objects : List (GoMap Value)} (hdata : FileContent files parseFloat p functions x asked objects) {files' : Files}
    (hlib : files'.decodeJson = files.decodeJson ∧ files'.lexXml = files.lexXml ∧ files'.xpath = files.xpath) (hc : files'.content (inputPath x) = files.content (inputPath x)) {e e' : InputDecl}
    {input input' : Input} (he : WithColumns (lib.onFiles files) (completedInput x) e) (ho : openInput files e (declaredTypes p) functions = .ok input)
    (he' : WithColumns (lib.onFiles files') (completedInput x) e') (ho' : openInput files' e' (declaredTypes p) functions = .ok input') : input'.scan = input.scan := by
  obtain ⟨content, hcontent, _⟩ := openInput_stamp ho
  rw [inputPath_columns he] at hcontent
  rw [hcontent] at hc
  cases x with
  | csv d =>
    obtain ⟨columns, rows, hfile, hread, _⟩ := CsvContent.file hdata
    obtain ⟨records, _, _, h3⟩ := hfile.opened_anywhere (types := declaredTypes p) lib (hw.inputs _ hx).2.2.2.1 functions hread he
    rw [(h3 files' (hc.trans hcontent.symm) e' input' he' ho').2.1.scan, (h3 files rfl e input he ho).2.1.scan]
  | json d =>
    rw [show e = _ from he] at ho
    rw [show e' = _ from he'] at ho'
    have hcontent : files.content d.path = some content := hcontent
    have hc : files'.content d.path = some content := hc
    simp only [completedInput, openInput, openJsonInput, hcontent, hc, hlib.1] at ho ho'
    cases ho
    cases ho'
    rfl
  | xml d =>
    rw [show e = _ from he] at ho
    rw [show e' = _ from he'] at ho'
    have hcontent : files.content d.path = some content := hcontent
    have hc : files'.content d.path = some content := hc
    simp only [completedInput, openInput, openXmlInput, hcontent, hc, hlib.2.1, hlib.2.2] at ho ho'
    cases ho
    cases ho'
    rfl

/-- The starts of before, seen from their inputs. -/
theorem earlierRuns_of (hload : loadConfig config p = .ok c) (hw : WellFormed config p) (hre : Reordered c c') {texts : GoMap TextParser} {inputs : GoMap Input}
    (h1 : instantiateMap (ParserDecl.instantiate (lib.onFiles files)) c'.parsers = .ok texts) (h2 : instantiateMap (InputDecl.instantiate (lib.onFiles files) texts) c'.inputs = .ok inputs)
    {parseFloat : Bytes → Res GoFloat} {asked : String → List String} {tables : String → List (GoMap Value)} {st : Storage}
    (hdata : ∀ x ∈ p.inputs, FileContent files parseFloat p (parseFunctions (lib.onFiles files) texts) x (asked x.name) (tables x.name))
    (hstored : ∀ x ∈ p.inputs, StoredOn config lib files st p (parseFunctions (lib.onFiles files) texts) x (asked x.name) (tables x.name)) {runs : List Run}
    (hruns : ∀ r ∈ runs, EarlierStart lib files st p (parseFunctions (lib.onFiles files) texts) c r) : EarlierRuns lib c' inputs st.lower runs := by
  intro r hr
  obtain ⟨hconfig, hlib, hfile, hpossible⟩ := hruns r hr
  obtain ⟨_, ⟨k1, _⟩, ⟨k2, _⟩, _⟩ := loadConfig_ok hload
  have hback : Reordered r.config c' := ⟨hconfig.parsers.symm.trans hre.parsers, hconfig.inputs.symm.trans hre.inputs, hconfig.indexes.symm.trans hre.indexes, hconfig.services.symm.trans hre.services,
    hconfig.outputs.symm.trans hre.outputs⟩
  refine ⟨⟨hback.parsers.symm, hback.inputs.symm, hback.indexes.symm, hback.services.symm, hback.outputs.symm⟩, ?_⟩
  intro texts' inputs' g1 g2
  obtain ⟨texts2, inputs2, e1, e2, e3⟩ := stages_congr hback ((hconfig.parsers.map _).nodup_iff.1 k1) ((hconfig.inputs.map _).nodup_iff.1 k2) g1 g2
  have e1' : instantiateMap (ParserDecl.instantiate (lib.onFiles files)) c'.parsers = .ok texts2 := e1
  rw [h1] at e1'
  cases e1'
  obtain ⟨_, hin⟩ := inputs_declared hload hre h1 h2
  obtain ⟨_, hin'⟩ := inputs_declared hload hre e1 e2
  -- the input of a name, then and now
  have key : ∀ n input', findInput inputs' n = .ok input' → ∃ x ∈ p.inputs, x.name = n ∧ ∃ e e' input, findInput inputs n = .ok input ∧
      WithColumns (lib.onFiles files) (completedInput x) e ∧ openInput files e (declaredTypes p) (parseFunctions (lib.onFiles files) texts) = .ok input ∧
      WithColumns (lib.onFiles r.files) (completedInput x) e' ∧ openInput r.files e' (declaredTypes p) (parseFunctions (lib.onFiles files) texts) = .ok input' ∧
      (SameStat input' input → ¬ Touched r.files files (inputPath x)) ∧ (¬ Touched r.files files (inputPath x) → SameStat input' input ∧ input'.scan = input.scan) := by
    intro n input' hi'
    rw [e3] at hi'
    obtain ⟨x, hx, rfl⟩ := hin'.1 _ _ hi'
    obtain ⟨e', input2, f1, f2, f3⟩ := hin'.2 x hx
    rw [hi'] at f1
    cases f1
    obtain ⟨e, input, d1, d2, d3⟩ := hin.2 x hx
    have f3 : openInput r.files e' (declaredTypes p) (parseFunctions (lib.onFiles files) texts) = .ok input' := f3
    obtain ⟨content, a1, a2, a3⟩ := openInput_stamp d3
    obtain ⟨content', b1, b2, b3⟩ := openInput_stamp f3
    rw [inputPath_columns d2] at a1 a3
    rw [inputPath_columns f2] at b1 b3
    refine ⟨x, hx, rfl, e, e', input, d1, d2, d3, f2, f3, ?_, ?_⟩
    · rintro ⟨s, t, u, s1, s2, s3, s4, s5⟩
      rw [a2] at s2
      rw [b2] at s1
      rw [a3] at s4
      rw [b3] at s3
      rw [ok_inj] at s1 s2 s3 s4
      subst s3 s4
      unfold Touched
      rw [a1, b1]
      simp only [Option.map_some, ne_eq, Option.some.injEq, not_or, Decidable.not_not]
      exact ⟨by omega, s5⟩
    · intro hn
      have hsame := (hfile x hx).resolve_right hn
      refine ⟨?_, scan_same hw hx (hdata x hx) hlib hsame d2 d3 f2 f3⟩
      rw [a1, b1] at hsame
      cases hsame
      refine ⟨_, _, _, b2, a2, b3, a3, ?_⟩
      unfold Touched at hn
      simp only [ne_eq, not_or, Decidable.not_not] at hn
      exact hn.2
  refine ⟨?_, ?_⟩
  · intro n input' hi'
    obtain ⟨x, _, _, _, _, input, hi, _, _, _, _, s1, s2⟩ := key n input' hi'
    exact ⟨input, hi, fun h => (s2 (s1 h)).2⟩
  · intro a ha w hw' input' hi'
    obtain ⟨x, hx, hname, e, e', input, hi, d2, d3, f2, f3, s1, s2⟩ := key _ _ hi'
    rcases indexes_declared hload (hre.indexes.symm.subset ha) with ⟨i, hi2, hi3⟩ | ⟨n, hi3⟩
    · rw [hw'] at hi3
      cases i with
      | wildcard d =>
        cases hi3
        obtain ⟨content', b1, b2, b3⟩ := openInput_stamp f3
        rw [inputPath_columns f2] at b1 b3
        by_cases ht : Touched r.files files (inputPath x)
        · have hp := hpossible x hx ht d hi2 hname.symm e' input' f2 f3
          refine ⟨hp.positions, hp.small, ?_, ?_⟩
          · intro n hn
            rw [b2, ok_inj] at hn
            have := hp.length _ b1
            unfold Int64Range
            omega
          · intro t htm
            rw [b3, ok_inj] at htm
            have := hp.time
            unfold Int64Range unixSeconds at *
            omega
        · obtain ⟨hstat, hscan⟩ := s2 ht
          have hon := (hstored x hx).wildcard d hi2 hname.symm e input d2 d3
          obtain ⟨⟨records, hrec⟩, _⟩ := (hdata x hx).records_of d2 hw hx
          obtain ⟨rows, htab, _⟩ := hrec.textTable d2 d3 hon
          obtain ⟨content, a1, a2, a3⟩ := openInput_stamp d3
          rw [inputPath_columns d2] at a1 a3
          have hstat' := hstat
          obtain ⟨s, t, u, q1, q2, q3, q4, q5⟩ := hstat'
          refine ⟨?_, ?_, ?_, ?_⟩
          · intro rs hrs rec hrec'
            rw [hscan, htab.scan] at hrs
            cases hrs
            obtain ⟨row, hrow, he⟩ := List.mem_map.1 hrec'
            cases he
            exact htab.range row hrow
          · rw [createIndex_stat hstat hscan]
            exact hon.small
          · intro n hn
            rw [q1, ok_inj] at hn
            rw [a2, ok_inj] at q2
            have := hon.length _ a1
            unfold Int64Range
            omega
          · intro v hv
            rw [q3, ok_inj] at hv
            rw [a3, ok_inj] at q4
            have := hon.time
            unfold Int64Range unixSeconds at *
            omega
      | sqlite d | fts5 d | map d | noop d => cases hi3
    · rw [hw'] at hi3
      cases hi3

/-- Starts with the data files of today are earlier starts. -/
theorem Spec.StartsOf.earlier {functions : GoMap (Bytes → Res Value)} {st : Storage} {runs : List Run} (h : StartsOf files c runs) : ∀ r ∈ runs, EarlierStart lib files st p functions c r := by
  intro r hr
  obtain ⟨hf, hre⟩ := h r hr
  refine ⟨hre, by rw [hf]; exact ⟨rfl, rfl, rfl⟩, fun x _ => .inl (by rw [hf]), fun x _ ht => ?_⟩
  rw [hf] at ht
  rcases ht with ht | ht <;> exact absurd rfl ht

/-- A start after others, from the disk of a configuration. -/
theorem start_after_with (hload : loadConfig config p = .ok c) (hw : WellFormed config p) (hown : OwnPlaces config p) (st : Storage) (hplan : PlansPermute st.sql)
    (runs : List Run) (hgap : NoneInGap lib st runs) (c' : Config) (hre : Reordered c c') {running : GoMap (String × List Route)} {st' : Storage}
    (hstart : startOn (lib.onFiles files) (afterProgramRuns lib st runs) c' = (.ok running, st')) {texts : GoMap TextParser} {inputs : GoMap Input}
    (h1 : instantiateMap (ParserDecl.instantiate (lib.onFiles files)) c'.parsers = .ok texts) (h2 : instantiateMap (InputDecl.instantiate (lib.onFiles files) texts) c'.inputs = .ok inputs) :
    ∀ (parseFloat : Bytes → Res GoFloat) (asked : String → List String) (tables : String → List (GoMap Value)),
      (∀ x ∈ p.inputs, FileContent files parseFloat p (parseFunctions (lib.onFiles files) texts) x (asked x.name) (tables x.name)) →
      (∀ x ∈ p.inputs, StoredOn config lib files st p (parseFunctions (lib.onFiles files) texts) x (asked x.name) (tables x.name)) →
      (∀ r ∈ runs, EarlierStart lib files st p (parseFunctions (lib.onFiles files) texts) c r) →
      (st'.lower = st.lower ∧ st'.sql = st.sql) ∧
      (∀ x ∈ p.inputs, StoredOn config (lib.onStorage st') files st' p (parseFunctions (lib.onFiles files) texts) x (asked x.name) (tables x.name)) ∧
      start ((lib.onStorage st').onFiles files) c' = .ok running ∧
      (∀ c'', Reordered c c'' → startOn (lib.onFiles files) st' c'' = (start ((lib.onStorage st').onFiles files) c'', st')) ∧
      ∃ env apis, env.parsers = parseFunctions (lib.onFiles files) texts ∧ Running config ((lib.onStorage st').onFiles files) p texts env apis running := by
  obtain ⟨_, ⟨k1, _⟩, ⟨k2, _⟩, _⟩ := loadConfig_ok hload
  have k1' : (c'.parsers.map (·.1)).Nodup := (hre.parsers.map _).nodup_iff.1 k1
  have k2' : (c'.inputs.map (·.1)).Nodup := (hre.inputs.map _).nodup_iff.1 k2
  obtain ⟨_, hin⟩ := inputs_declared hload hre h1 h2
  intro parseFloat asked tables hdata hstored hruns
  have hback : ∀ c'', Reordered c c'' → Reordered c' c'' := fun c'' h =>
    ⟨hre.parsers.symm.trans h.parsers, hre.inputs.symm.trans h.inputs, hre.indexes.symm.trans h.indexes, hre.services.symm.trans h.services, hre.outputs.symm.trans h.outputs⟩
  have hdisk := storedOn_disk hw hin hdata hstored
  have hapart' := ownPlaces_apart hload hown
  have hapart : ∀ a ∈ c'.indexes, ApartFrom c'.indexes a.2 := fun a ha b hb => hapart' a (hre.indexes.symm.subset ha) b (hre.indexes.symm.subset hb)
  have hall : ∀ st : Storage, (∀ i ∈ p.indexes, DiskOk inputs st (completedIndex config i)) → ∀ a ∈ c'.indexes, DiskOk inputs st a.2 := by
    intro st h a ha
    rcases indexes_declared hload (hre.indexes.symm.subset ha) with ⟨i, hi, e⟩ | ⟨n, e⟩
    · rw [e]
      exact h i hi
    · rw [e]
      exact fun _ _ => ⟨fun _ h => (by cases h), fun _ _ h => (by cases h)⟩
  have hdeclared : ∀ st : Storage, (∀ a ∈ c'.indexes, DiskOk inputs st a.2) → ∀ i ∈ p.indexes, DiskOk inputs st (completedIndex config i) := by
    intro st h i hi
    have := ((C77_defaults config p c hload i.name).2.2.1 _).2 ⟨i, .inl ⟨hi, rfl⟩, rfl⟩
    exact h _ (hre.indexes.subset (mapGet_mem this))
  obtain ⟨⟨j1, j2⟩, jkept⟩ := afterProgramRuns_kept hapart runs st (earlierRuns_of hload hw hre h1 h2 hdata hstored hruns) hgap (fun a ha => .inl (hall st hdisk a ha))
  obtain ⟨s1, s2⟩ := startOn_inputs (st := afterProgramRuns lib st runs) h1 h2
  have j3 : ∀ a ∈ c'.indexes, DiskOk inputs (afterProgramRuns lib st runs) a.2 := by
    intro a ha
    refine (jkept a ha).resolve_right (fun hcut => ?_)
    obtain ⟨e, he⟩ := openIndexes_cut (lib := lib.onFiles files) (inputs := inputs) c'.indexes _ ⟨a, ha, hcut⟩
    obtain ⟨fs, hfs⟩ := s2 running (by rw [hstart])
    rw [he] at hfs
    cases hfs
  obtain ⟨⟨i1, i2⟩, i3, _, i4⟩ := openIndexes_effect (lib := lib.onFiles files) (inputs := inputs) (l := c'.indexes) (st := afterProgramRuns lib st runs)
    (by rw [j2]; exact hplan) j3 hapart
  rw [hstart] at s1 s2
  dsimp only at s1 s2
  rw [← s1] at i1 i2 i3 i4
  obtain ⟨fs, hfs⟩ := s2 running rfl
  have hopened := i4 fs hfs
  have hlower := i1.trans j1
  have hsql := i2.trans j2
  have hplan' : PlansPermute st'.sql := by rw [hsql]; exact hplan
  have hdisk' := hdeclared st' (fun a ha => i3 a.2 (j3 a ha) (hapart a ha))
  have hagain : ∀ c'', Reordered c c'' → startOn (lib.onFiles files) st' c'' = (start ((lib.onStorage st').onFiles files) c'', st') := by
    intro c'' hre''
    obtain ⟨texts', inputs', e1, e2, e3⟩ := stages_congr (hback c'' hre'') k1' k2' h1 h2
    have heach : ∀ a ∈ c''.indexes, ∃ f, Opened (lib.onFiles files) inputs' st' a.2 f := by
      intro a ha
      obtain ⟨f, hf⟩ := hopened.each a ((hback c'' hre'').indexes.symm.subset ha)
      refine ⟨f, ?_⟩
      have hinst : ∀ d, IndexDecl.instantiate (lib.onFiles files) inputs d = IndexDecl.instantiate (lib.onFiles files) inputs' d := by
        intro d
        cases d <;> simp only [IndexDecl.instantiate, e3]
      generalize a.2 = d at hf
      cases d <;> (simp only [Opened, e3, hinst] at hf ⊢; exact hf)
    obtain ⟨fs', hfs'⟩ := allOpened_of_each heach
    exact startOn_opened hplan' e1 e2 hfs'
  have hrunning : start ((lib.onStorage st').onFiles files) c' = .ok running := by
    -- the indexes that were opened are those that would be opened now
    obtain ⟨e1, e2⟩ := hopened.again hplan'
    have hsame : startOn (lib.onFiles files) (afterProgramRuns lib st runs) c' = startOn (lib.onFiles files) st' c' := by
      have e : (do
        let parsers ← instantiateMap (ParserDecl.instantiate (lib.onFiles files)) c'.parsers
        let inputs ← instantiateMap (InputDecl.instantiate (lib.onFiles files) parsers) c'.inputs
        .ok (parsers, inputs) : Res (GoMap TextParser × GoMap Input)) = .ok (texts, inputs) := by
        rw [h1]
        simp only [bind, Except.bind, h2]
      have hfirst : openIndexes (lib.onFiles files) inputs (afterProgramRuns lib st runs) c'.indexes = (.ok fs, st') := by
        rw [← hfs, s1]
      unfold startOn
      rw [e]
      simp only [hfirst, e1]
    rw [hstart, hagain c' hre] at hsame
    exact (congrArg Prod.fst hsame).symm
  refine ⟨⟨hlower, hsql⟩, fun x hx => storedOn_kept (hin.2 x hx) (hstored x hx) hsql hdisk', hrunning, hagain, ?_⟩
  obtain ⟨texts', env, apis, e1, _, hrun⟩ := start_runs hload hre hrunning
  have : texts' = texts := by
    have h1' : instantiateMap (ParserDecl.instantiate ((lib.onStorage st').onFiles files)) c'.parsers = .ok texts := h1
    rw [h1'] at e1
    cases e1
    rfl
  subst this
  exact ⟨env, apis, hrun.functions, hrun⟩

/-- A start after others, from the disk of a configuration. -/
theorem start_after (hload : loadConfig config p = .ok c) (hw : WellFormed config p) (hown : OwnPlaces config p) (st : Storage) (hplan : PlansPermute st.sql)
    (runs : List Run) (hgap : NoneInGap lib st runs) (c' : Config) (hre : Reordered c c') {running : GoMap (String × List Route)} {st' : Storage}
    (hstart : startOn (lib.onFiles files) (afterProgramRuns lib st runs) c' = (.ok running, st')) :
    ∃ texts functions, ParsersRun (lib.onFiles files) p texts functions ∧
      ∀ (parseFloat : Bytes → Res GoFloat) (asked : String → List String) (tables : String → List (GoMap Value)),
      (∀ x ∈ p.inputs, FileContent files parseFloat p functions x (asked x.name) (tables x.name)) →
      (∀ x ∈ p.inputs, StoredOn config lib files st p functions x (asked x.name) (tables x.name)) →
      (∀ r ∈ runs, EarlierStart lib files st p functions c r) →
      (st'.lower = st.lower ∧ st'.sql = st.sql) ∧
      (∀ x ∈ p.inputs, StoredOn config (lib.onStorage st') files st' p functions x (asked x.name) (tables x.name)) ∧
      start ((lib.onStorage st').onFiles files) c' = .ok running ∧
      (∀ c'', Reordered c c'' → startOn (lib.onFiles files) st' c'' = (start ((lib.onStorage st').onFiles files) c'', st')) ∧
      ∃ env apis, env.parsers = functions ∧ Running config ((lib.onStorage st').onFiles files) p texts env apis running := by
  obtain ⟨texts, inputs, h1, h2⟩ := startOn_stages hstart
  exact ⟨texts, _, (inputs_declared hload hre h1 h2).1, start_after_with hload hw hown st hplan runs hgap c' hre hstart h1 h2⟩

theorem separate_completed {i j : IndexDecl} (h : Separate i j) : Separate (completedIndex config i) (completedIndex config j) := by
  constructor
  · intro a b ha hb
    cases i <;> cases ha
    cases j <;> cases hb
    have := h.files _ _ rfl rfl
    exact this
  · intro x y hx hy
    cases i <;> cases hx <;> cases j <;> cases hy <;> (have := h.databases _ _ rfl rfl; exact this)

theorem separate_noop (n : String) (i : IndexDecl) : Separate (.noop n) i ∧ Separate i (.noop n) :=
  ⟨⟨fun _ _ h => (by cases h), fun _ _ h => (by cases h)⟩, ⟨fun _ _ _ h => (by cases h), fun _ _ _ h => (by cases h)⟩⟩

theorem ownFiles_apart (h : OwnFiles p) : OwnPlaces config p := by
  intro i hi j hj
  rcases h i hi j hj with h | h
  · exact .inl h
  · have h := separate_completed (config := config) h
    exact .inr ⟨h.files, fun x y hx hy e => absurd e (h.databases x y hx hy)⟩

theorem ownFiles_pairwise (hload : loadConfig config p = .ok c) (hre : Reordered c c') (h : OwnFiles p) : c'.indexes.Pairwise (fun a b => Separate a.2 b.2 ∧ Separate b.2 a.2) := by
  obtain ⟨_, _, _, ⟨k3, hk3⟩, _⟩ := loadConfig_ok hload
  have hn : (c'.indexes.map (·.1)).Nodup := (hre.indexes.map _).nodup_iff.1 k3
  have hn' : c'.indexes.Pairwise (fun a b => a.1 ≠ b.1) := List.pairwise_map.1 hn
  refine List.Pairwise.imp_of_mem ?_ hn'
  intro a b ha hb hab
  have ha := hre.indexes.symm.subset ha
  have hb := hre.indexes.symm.subset hb
  have hab' : a.2.name ≠ b.2.name := by
    have e1 := hk3 a.1 a.2 ha
    have e2 := hk3 b.1 b.2 hb
    rw [e1.1, e2.1]
    exact hab
  rcases indexes_declared hload ha with ⟨i, hi, e⟩ | ⟨n, e⟩
  · rcases indexes_declared hload hb with ⟨j, hj, e'⟩ | ⟨n, e'⟩
    · have hij : i ≠ j := fun h => hab' (by rw [e, e', h])
      rw [e, e']
      exact ⟨separate_completed ((h i hi j hj).resolve_left hij), separate_completed ((h j hj i hi).resolve_left (Ne.symm hij))⟩
    · rw [e']
      exact ⟨(separate_noop n _).2, (separate_noop n _).1⟩
  · rw [e]
    exact ⟨(separate_noop n _).1, (separate_noop n _).2⟩
end

/-- **C112** If every index has a file or database of its own, then starting the program succeeds, and gives the services, exactly as if each index was alone on the machine. -/
theorem C112_alone (config : ConfigLib) (p : ParsedConfig) (c c' : Config) (hload : loadConfig config p = .ok c) (hre : Reordered c c') (hown : OwnFiles p) (lib : StartLib) (files : Files)
    (st : Storage) : (startOn (lib.onFiles files) st c').1 = start ((lib.onStorage st).onFiles files) c' :=
  startOn_alone (lib.onFiles files) st c' (ownFiles_pairwise hload hre hown)

/-- **C112** Starting the program again. The configuration may keep several SQLite and full-text indexes in the same database, if their names differ in more than the case of letters, and has a file for
every wildcard index. If, after any number of starts, successful or not, or killed, a start succeeds, then starting once more changes nothing on the machine and gives the same services; and starting with
the maps of the configuration visited in another order changes nothing on the machine either. -/
theorem C112_again (file : ConfigFileLib) (config : ConfigLib) (path : String) (p : ParsedConfig) (hdescribes : FileDescribes file path p) (c : Config)
    (hload : loadConfigFile file config path = .ok c) (hown : OwnPlaces config p) (lib : StartLib) (files : Files) (st : Storage) (hplan : PlansPermute st.sql)
    (runs : List Run) (hgap : NoneInGap lib st runs) (c' : Config) (hre : Reordered c c') (running : GoMap (String × List Route)) (st' : Storage)
    (hstart : startOn (lib.onFiles files) (afterProgramRuns lib st runs) c' = (.ok running, st')) :
    ∃ texts functions, ParsersRun (lib.onFiles files) p texts functions ∧
      ∀ (parseFloat : Bytes → Res GoFloat) (asked : String → List String) (tables : String → List (GoMap Value)),
      (∀ x ∈ p.inputs, FileContent files parseFloat p functions x (asked x.name) (tables x.name)) →
      (∀ x ∈ p.inputs, StoredOn config lib files st p functions x (asked x.name) (tables x.name)) →
      (∀ r ∈ runs, EarlierStart lib files st p functions c r) →
      startOn (lib.onFiles files) st' c' = (.ok running, st') ∧ ∀ c'', Reordered c c'' → (startOn (lib.onFiles files) st' c'').2 = st' := by
  obtain ⟨p', h1, h2⟩ := (loadConfigFile_iff file config path c).1 hload
  obtain rfl := h1.unique hdescribes
  obtain ⟨texts, functions, hparsers, h⟩ := start_after h2 ((C76_accepted config p').1 ⟨c, h2⟩) hown st hplan runs hgap c' hre hstart
  refine ⟨texts, functions, hparsers, fun parseFloat asked tables hdata hstored hruns => ?_⟩
  obtain ⟨_, _, h3, h4, _⟩ := h parseFloat asked tables hdata hstored hruns
  exact ⟨by rw [h4 c' hre, h3], fun c'' hre'' => by rw [h4 c'' hre'']⟩

/-- **C112** The program as a whole, over its life on a machine, for lists: after any number of starts, successful or not, or killed, with indexes that share databases, a program that has started answers requests for
lists from the objects in its files, as in C108.
Missing for the full C112: a data file that changes and keeps its size and the second of its modification time (see C114), a start that is killed after it has marked the file of a wildcard index as complete and before it has written the
rest of it (`NoneInGap`, `C112_false`), and what is missing in C108. -/
theorem C112_list_partial (file : ConfigFileLib) (config : ConfigLib) (path : String) (p : ParsedConfig) (hdescribes : FileDescribes file path p) (c : Config)
    (hload : loadConfigFile file config path = .ok c) (hown : OwnPlaces config p) (lib : StartLib) (hsort : SortContract lib.sort) (files : Files)
    (hvisit : ∀ (path : List Nat) (α : Type) (l : List α), (lib.visit path l).Perm l) (st : Storage) (hplan : PlansPermute st.sql)
    (runs : List Run) (hgap : NoneInGap lib st runs) (c' : Config) (hre : Reordered c c') (running : GoMap (String × List Route)) (st' : Storage)
    (hstart : startOn (lib.onFiles files) (afterProgramRuns lib st runs) c' = (.ok running, st'))
    (service : ServiceLib) (hlib : RegexpContract service.find) (formatFloat : Int → Bytes) (hencode : service.encode = encodeJson formatFloat) (parseFloat : Bytes → Res GoFloat) :
    ∃ texts functions, ParsersRun (lib.onFiles files) p texts functions ∧
      ∀ (asked : String → List String) (tables : String → List (GoMap Value)), PlainDefault p →
      (∀ x ∈ p.inputs, FileContent files parseFloat p functions x (asked x.name) (tables x.name)) →
      (∀ x ∈ p.inputs, StoredOn config lib files st p functions x (asked x.name) (tables x.name)) →
      (∀ r ∈ runs, EarlierStart lib files st p functions c r) →
      ∃ env apis, env.parsers = functions ∧ Running config ((lib.onStorage st').onFiles files) p texts env apis running ∧
        ListsAnswered config (lib.onStorage st') files st p env running service formatFloat asked tables := by
  obtain ⟨p', h1, h2⟩ := (loadConfigFile_iff file config path c).1 hload
  obtain rfl := h1.unique hdescribes
  have hw := (C76_accepted config p').1 ⟨c, h2⟩
  obtain ⟨texts, functions, hparsers, h⟩ := start_after h2 hw hown st hplan runs hgap c' hre hstart
  refine ⟨texts, functions, hparsers, fun asked tables hdef hdata hstored hruns => ?_⟩
  obtain ⟨⟨e1, e2⟩, h3, _, _, env, apis, rfl, hrun⟩ := h parseFloat asked tables hdata hstored hruns
  refine ⟨env, apis, rfl, hrun, ?_⟩
  have hall := lists_answered (lib := lib.onStorage st') (st := st') hsort hvisit hw hrun rfl service hlib formatFloat hencode parseFloat asked tables hdef hdata h3
  unfold ListsAnswered at hall ⊢
  rw [foundIn_storage e1 e2, askable_storage e1] at hall
  exact hall

/-- **C112** Likewise for objects.
Missing for the full C112: a data file that changes and keeps its size and the second of its modification time (see C114), a start that is killed after it has marked the file of a wildcard index as complete and before it has written the
rest of it (`NoneInGap`, `C112_false`), and what is missing in C108. -/
theorem C112_object_partial (file : ConfigFileLib) (config : ConfigLib) (path : String) (p : ParsedConfig) (hdescribes : FileDescribes file path p) (c : Config)
    (hload : loadConfigFile file config path = .ok c) (hown : OwnPlaces config p) (lib : StartLib) (hsort : SortContract lib.sort) (files : Files)
    (hvisit : ∀ (path : List Nat) (α : Type) (l : List α), (lib.visit path l).Perm l) (st : Storage) (hplan : PlansPermute st.sql)
    (runs : List Run) (hgap : NoneInGap lib st runs) (c' : Config) (hre : Reordered c c') (running : GoMap (String × List Route)) (st' : Storage)
    (hstart : startOn (lib.onFiles files) (afterProgramRuns lib st runs) c' = (.ok running, st'))
    (service : ServiceLib) (hlib : RegexpContract service.find) (formatFloat : Int → Bytes) (hencode : service.encode = encodeJson formatFloat) (parseFloat : Bytes → Res GoFloat) :
    ∃ texts functions, ParsersRun (lib.onFiles files) p texts functions ∧
      ∀ (asked : String → List String) (tables : String → List (GoMap Value)), PlainDefault p →
      (∀ x ∈ p.inputs, FileContent files parseFloat p functions x (asked x.name) (tables x.name)) →
      (∀ x ∈ p.inputs, StoredOn config lib files st p functions x (asked x.name) (tables x.name)) →
      (∀ r ∈ runs, EarlierStart lib files st p functions c r) →
      ∃ env apis, env.parsers = functions ∧ Running config ((lib.onStorage st').onFiles files) p texts env apis running ∧
        ObjectsAnswered config (lib.onStorage st') files st p env running service formatFloat asked tables := by
  obtain ⟨p', h1, h2⟩ := (loadConfigFile_iff file config path c).1 hload
  obtain rfl := h1.unique hdescribes
  have hw := (C76_accepted config p').1 ⟨c, h2⟩
  obtain ⟨texts, functions, hparsers, h⟩ := start_after h2 hw hown st hplan runs hgap c' hre hstart
  refine ⟨texts, functions, hparsers, fun asked tables hdef hdata hstored hruns => ?_⟩
  obtain ⟨⟨e1, e2⟩, h3, _, _, env, apis, rfl, hrun⟩ := h parseFloat asked tables hdata hstored hruns
  refine ⟨env, apis, rfl, hrun, ?_⟩
  have hall := objects_answered (lib := lib.onStorage st') (st := st') hsort hvisit hw hrun rfl service hlib formatFloat hencode parseFloat asked tables hdef hdata h3
  unfold ObjectsAnswered at hall ⊢
  rw [foundIn_storage e1 e2, askable_storage e1] at hall
  exact hall

namespace RestartExample
/-- The configuration of `StoredFilesExample`, with the SQLite and full-text indexes in one database. -/
def parsed : ParsedConfig := { StoredFilesExample.parsed with
  indexes := [.wildcard StoredFilesExample.wildcard, .sqlite StoredFilesExample.sqlite, .fts5 { StoredFilesExample.fts5 with dsn := "in.sqlite" }] }
/-- Its file. -/
def file : ConfigFileLib := { ProgramExample.file with parse := fun text => if text = [112] then some (documentOf parsed) else none }
def startLib : StartLib := (StoredFilesExample.startLib FilesExample.noParsers).onFiles FilesExample.machine

/-- A start that is killed when it begins to use the database, and one that is not killed. -/
def runs (c : Config) : List Run := [⟨FilesExample.machine, c, some ⟨1, 0, 0⟩⟩, ⟨FilesExample.machine, c, none⟩]

/-- The program starts a third time. -/
theorem starts : ∃ c, loadConfig ConfigExample.lib parsed = .ok c ∧ (∀ k d, c.indexes[1]? ≠ some (k, .wildcard d)) ∧ ∃ running st',
    startOn startLib (afterProgramRuns (StoredFilesExample.startLib FilesExample.noParsers) StoredFilesExample.storage (runs c)) c = (.ok running, st') := by
  have h : (match loadConfig ConfigExample.lib parsed with
      | .ok c => (match (c.indexes[1]? : Option (String × IndexDecl)) with | some (_, .wildcard _) => false | _ => true) &&
        (match startOn startLib (afterProgramRuns (StoredFilesExample.startLib FilesExample.noParsers) StoredFilesExample.storage (runs c)) c with | (.ok _, _) => true | (.error _, _) => false)
      | .error _ => false) = true := by decide +kernel
  cases hc : loadConfig ConfigExample.lib parsed with
  | error e => rw [hc] at h; cases h
  | ok c =>
    rw [hc] at h
    simp only [Bool.and_eq_true] at h
    refine ⟨c, rfl, ?_, ?_⟩
    · intro k d e
      rw [e] at h
      cases h.1
    · cases hs : startOn startLib (afterProgramRuns (StoredFilesExample.startLib FilesExample.noParsers) StoredFilesExample.storage (runs c)) c with
      | mk r st' =>
        rw [hs] at h
        cases r with
        | error e => cases h.2
        | ok running => exact ⟨running, st', rfl⟩

theorem startsOf (c : Config) : StartsOf FilesExample.machine c (runs c) := by
  intro r hr
  simp only [runs, List.mem_cons, List.not_mem_nil, or_false] at hr
  rcases hr with rfl | rfl <;> exact ⟨rfl, .refl _, .refl _, .refl _, .refl _, .refl _⟩

theorem noneInGap {c : Config} (h : ∀ k d, c.indexes[1]? ≠ some (k, .wildcard d)) : NoneInGap (StoredFilesExample.startLib FilesExample.noParsers) StoredFilesExample.storage (runs c) := by
  refine noneInGap_of ?_
  intro r hr death hd
  simp only [runs, List.mem_cons, List.not_mem_nil, or_false] at hr
  rcases hr with rfl | rfl
  · cases hd
    exact h
  · cases hd

theorem own : OwnPlaces ConfigExample.lib parsed := by
  intro i hi j hj
  simp only [parsed, List.mem_cons, List.not_mem_nil, or_false] at hi hj
  rcases hi with rfl | rfl | rfl <;> rcases hj with rfl | rfl | rfl <;> first
    | exact .inl rfl
    | exact .inr ⟨fun _ _ h1 h2 => (by first | (cases h1; done) | (cases h2; done)), fun _ _ h1 h2 => (by first | (cases h1; done) | (cases h2; done) | (cases h1; cases h2; decide))⟩

theorem representable : Representable parsed :=
  ⟨by simp [parsed, StoredFilesExample.fts5], ProgramExample.representable.2, ProgramExample.representable.3⟩

theorem loads : FileDescribes file "rodb.yaml" parsed ∧ ∃ c, loadConfigFile file ConfigExample.lib "rodb.yaml" = .ok c ∧ loadConfig ConfigExample.lib parsed = .ok c := by
  obtain ⟨c, hc, _⟩ := starts
  exact C93_written file ConfigExample.lib "rodb.yaml" _ representable ((C76_accepted _ _).1 ⟨_, hc⟩) [36, 80] (by simp [file, ProgramExample.file])
    (by simp [file, ProgramExample.file, expandEnv, expandLoop, shellName, isShellSpecial, isAlphaNum])

theorem parser {texts : GoMap TextParser} {functions : GoMap (Bytes → Res Value)} (hrun : ParsersRun startLib parsed texts functions) :
    mapGet functions "integer" = some (integerParse []) ∧ mapGet functions "string" = some (fun cell => .ok (.str cell)) := by
  have key : ∀ {n x}, IsParser parsed n x → ∃ t, RunsParser startLib (completedParser x) t ∧ mapGet functions n =
      some (Rodb.parse FilesExample.noParsers (texts.map (fun q => (q.1, q.2.config))) texts.length t.config) := by
    intro n x hx
    obtain ⟨t, ht, hr⟩ := hrun.1 _ _ hx
    refine ⟨t, hr, ?_⟩
    rw [hrun.2, parseFunctions, mapGet_mapValues (fun q : TextParser => Rodb.parse startLib.parserLib
      (texts.map (fun q => (q.1, q.2.config))) texts.length q.config), ht]
    rfl
  obtain ⟨t, ht, h⟩ := key (n := "integer") (x := ⟨"integer", .integer ""⟩) (.inr ⟨by simp [parsed, StoredFilesExample.parsed], by simp [builtinParsers], rfl⟩)
  obtain ⟨u, hu, g⟩ := key (n := "string") (x := ⟨"string", .string ""⟩) (.inr ⟨by simp [parsed, StoredFilesExample.parsed], by simp [builtinParsers], rfl⟩)
  rw [show t = .integer [] from ht] at h
  rcases hu with ⟨_, rfl⟩ | ⟨hc, _⟩
  · refine ⟨?_, ?_⟩
    · rw [h]
      congr 1
      funext cell
      show Rodb.parse _ _ _ (.integer []) cell = _
      simp only [Rodb.parse]
    · rw [g]
      congr 1
      funext cell
      show Rodb.parse _ _ _ (.string none) cell = _
      simp only [Rodb.parse, stringParse]
  · exact (hc rfl).elim
theorem data {functions : GoMap (Bytes → Res Value)} (h1 : mapGet functions "integer" = some (integerParse []))
    (h2 : mapGet functions "string" = some (fun cell => .ok (.str cell))) :
    ∀ x ∈ parsed.inputs, FileContent FilesExample.machine JsonExample.parse parsed functions x (StoredFilesExample.asked x.name) (StoredFilesExample.tables x.name) := by
  intro x hx
  cases List.mem_singleton.1 hx
  have hrow : ∀ a b v, integerParse [] a = .ok v → RowReads functions [⟨"n", "integer"⟩, ⟨"s", "string"⟩] [a, b] [("n", v), ("s", .str b)] :=
    fun a b v h => ⟨_, _, _, h1, h, ⟨_, _, _, h2, rfl, rfl, rfl⟩, rfl⟩
  refine ⟨⟨_, _, FilesExample.file, ⟨_, _, hrow _ _ _ rfl, ⟨_, _, hrow _ _ _ rfl, ⟨_, _, hrow _ _ _ rfl, rfl, rfl⟩, rfl⟩, rfl⟩, ?_, ?_⟩, ?_⟩
  · intro q hq
    have hq : q ∈ ["n", "s"] := hq
    simp only [List.mem_cons, List.not_mem_nil, or_false] at hq
    rcases hq with rfl | rfl
    · exact ⟨⟨"n", [], rfl, by decide⟩, fun o _ => ⟨_, (valueAt_name (by decide)).2 rfl⟩⟩
    · exact ⟨⟨"s", [], rfl, by decide⟩, fun o _ => ⟨_, (valueAt_name (by decide)).2 rfl⟩⟩
  · intro m hm
    simp [parsed] at hm
  · intro o ho
    simp only [StoredFilesExample.tables, FilesExample.objects, List.mem_cons, List.not_mem_nil, or_false] at ho
    rcases ho with rfl | rfl | rfl <;> (intro h; cases h with | @obj m k v hm hv => simp at hm; rcases hm with ⟨_, rfl⟩ | ⟨_, rfl⟩ <;> cases hv)
theorem stored {parserLib : ParserLib} {functions : GoMap (Bytes → Res Value)} (h1 : mapGet functions "integer" = some (integerParse []))
    (h2 : mapGet functions "string" = some (fun cell => .ok (.str cell))) :
    ∀ x ∈ parsed.inputs, StoredOn ConfigExample.lib (StoredFilesExample.startLib parserLib) FilesExample.machine StoredFilesExample.storage parsed functions x (StoredFilesExample.asked x.name) (StoredFilesExample.tables x.name) := by
  intro x hx
  cases List.mem_singleton.1 hx
  have hopen : ∀ e input, WithColumns ((StoredFilesExample.startLib parserLib).onFiles FilesExample.machine) (completedInput (.csv FilesExample.decl)) e →
      openInput FilesExample.machine e (declaredTypes parsed) functions = .ok input → input = StoredFilesExample.opened := by
    intro e input he h
    rw [show e = completedInput (.csv FilesExample.decl) from he] at h
    have : openInput FilesExample.machine (completedInput (.csv FilesExample.decl)) (declaredTypes parsed) functions = .ok StoredFilesExample.opened := by
      have hcolumns : CsvDecl.csvColumns { FilesExample.decl with columns := [⟨"n", "integer"⟩, ⟨"s", "string"⟩] } functions =
          [⟨"n", integerParse []⟩, ⟨"s", fun cell => .ok (.str cell)⟩] := by
        simp only [CsvDecl.csvColumns, List.map_cons, List.map_nil, h1, h2]
      unfold StoredFilesExample.opened
      rw [← hcolumns]
      rfl
    rw [this] at h
    exact (Except.ok.inj h).symm
  refine ⟨?_, ?_, ?_⟩
  · intro d hd _ e input he h
    cases hopen e input he h
    simp only [parsed, List.mem_cons, IndexDecl.wildcard.injEq, reduceCtorEq, List.not_mem_nil, or_false] at hd
    subst hd
    refine ⟨by decide, ?_, ?_, by unfold Int64Range; decide, by decide +kernel, by decide, .inl rfl⟩
    · intro o ho q hq
      rw [List.mem_singleton.1 hq]
      have ho : o ∈ FilesExample.objects := ho
      simp only [FilesExample.objects, List.mem_cons, List.not_mem_nil, or_false] at ho
      rcases ho with rfl | rfl | rfl <;> exact ⟨_, (valueAt_name (by decide)).2 rfl⟩
    · intro content hc
      cases hc
      decide
  · intro d hd _
    simp only [parsed, List.mem_cons, IndexDecl.sqlite.injEq, reduceCtorEq, List.not_mem_nil, or_false, false_or] at hd
    subst hd
    refine ⟨⟨fun _ _ => rfl, fun _ => rfl⟩, fun e i _ h => ⟨by unfold NoNul; decide, ?_, ?_, emptyDb, [], fun _ => rfl, by simp, by simp, rfl⟩⟩
    · intro q hq
      rw [List.mem_singleton.1 hq]
      unfold NoNul
      decide
    · intro s hs
      cases hs
  · intro d hd _
    simp only [parsed, List.mem_cons, IndexDecl.fts5.injEq, reduceCtorEq, List.not_mem_nil, or_false, false_or] at hd
    subst hd
    refine ⟨⟨fun _ _ => rfl, fun _ => rfl⟩, by decide, fun e i _ h => ⟨by unfold NoNul; decide, ?_, ?_, emptyDb, [], fun _ => rfl, by simp, by simp, rfl⟩⟩
    · intro q hq
      rw [List.mem_singleton.1 hq]
      unfold NoNul
      decide
    · intro s hs
      cases hs
      decide
end RestartExample

/-- The example has two indexes in one database. Its first start is killed. Started a third time, it changes nothing, and gives the same services. -/
example : ∃ c running st', startOn RestartExample.startLib (afterProgramRuns (StoredFilesExample.startLib FilesExample.noParsers) StoredFilesExample.storage (RestartExample.runs c)) c = (.ok running, st') ∧
    startOn RestartExample.startLib st' c = (.ok running, st') := by
  obtain ⟨hd, c, hload, hc⟩ := RestartExample.loads
  obtain ⟨c', hc', hgap, running, st', hstart⟩ := RestartExample.starts
  rw [hc] at hc'
  cases hc'
  obtain ⟨texts, functions, hruns, h⟩ := C112_again RestartExample.file ConfigExample.lib "rodb.yaml" _ hd c hload RestartExample.own (StoredFilesExample.startLib FilesExample.noParsers)
    FilesExample.machine StoredFilesExample.storage (fun _ _ => .refl _) (RestartExample.runs c) (RestartExample.noneInGap hgap) c
    ⟨.refl _, .refl _, .refl _, .refl _, .refl _⟩ running st' hstart
  obtain ⟨p1, p2⟩ := RestartExample.parser hruns
  exact ⟨c, running, st', hstart, (h JsonExample.parse StoredFilesExample.asked StoredFilesExample.tables (RestartExample.data p1 p2) (RestartExample.stored p1 p2) (RestartExample.startsOf c).earlier).1⟩

namespace OtherFilesExample
/-- The data file with one more line. -/
def longer : Files := { FilesExample.machine with
  content := fun path => if path = "in.csv" then some [110, 44, 115, 10, 49, 44, 97, 10, 49, 44, 98, 13, 10, 10, 50, 44, 34, 99, 34, 34, 34, 10, 51, 44, 100] else none }
/-- The program starts; a line is added to its data file, and it is started again, which fails; then the line is removed again. -/
def runs (c : Config) : List Run := [⟨FilesExample.machine, c, none⟩, ⟨longer, c, none⟩]
/-- The input of the longer file. -/
def input : Input :=
  csvAsInput { columns := [⟨"n", integerParse []⟩, ⟨"s", fun cell => .ok (.str cell)⟩], ignoreFirstRow := true, reader := csvReader 44 } "in"
    [110, 44, 115, 10, 49, 44, 97, 10, 49, 44, 98, 13, 10, 10, 50, 44, 34, 99, 34, 34, 34, 10, 51, 44, 100] 0 (fun _ => [3, 7])
    (fun _ => ({ content := [110, 44, 115, 10, 49, 44, 97, 10, 49, 44, 98, 13, 10, 10, 50, 44, 34, 99, 34, 34, 34, 10, 51, 44, 100], offset := 5, buffer := [] }, [100]))
def positionsFit : Bool :=
  match input.scan with
  | .ok rs => rs.all (fun r => match r with | .ok r => decide (-2^63 ≤ r.position) && decide (r.position < 2^63) | .error _ => true)
  | .error _ => true

theorem starts : ∃ c, loadConfig ConfigExample.lib RestartExample.parsed = .ok c ∧ (∃ e st, startOn ((StoredFilesExample.startLib FilesExample.noParsers).onFiles longer) (afterProgramRuns (StoredFilesExample.startLib FilesExample.noParsers) StoredFilesExample.storage [⟨FilesExample.machine, c, none⟩]) c = (.error e, st)) ∧
    ∃ running st', startOn RestartExample.startLib (afterProgramRuns (StoredFilesExample.startLib FilesExample.noParsers) StoredFilesExample.storage (runs c)) c = (.ok running, st') := by
  have h : (match loadConfig ConfigExample.lib RestartExample.parsed with
      | .ok c => (match startOn ((StoredFilesExample.startLib FilesExample.noParsers).onFiles longer) (afterProgramRuns (StoredFilesExample.startLib FilesExample.noParsers) StoredFilesExample.storage [⟨FilesExample.machine, c, none⟩]) c with | (.ok _, _) => false | (.error _, _) => true) &&
        (match startOn RestartExample.startLib (afterProgramRuns (StoredFilesExample.startLib FilesExample.noParsers) StoredFilesExample.storage (runs c)) c with | (.ok _, _) => true | (.error _, _) => false)
      | .error _ => false) = true := by decide +kernel
  cases hc : loadConfig ConfigExample.lib RestartExample.parsed with
  | error e => rw [hc] at h; cases h
  | ok c =>
    rw [hc] at h
    simp only [Bool.and_eq_true] at h
    refine ⟨c, rfl, ?_, ?_⟩
    · cases hs : startOn ((StoredFilesExample.startLib FilesExample.noParsers).onFiles longer) (afterProgramRuns (StoredFilesExample.startLib FilesExample.noParsers) StoredFilesExample.storage [⟨FilesExample.machine, c, none⟩]) c with
      | mk r st' =>
        rw [hs] at h
        cases r with
        | ok running => cases h.1
        | error e => exact ⟨e, st', rfl⟩
    · cases hs : startOn RestartExample.startLib (afterProgramRuns (StoredFilesExample.startLib FilesExample.noParsers) StoredFilesExample.storage (runs c)) c with
      | mk r st' =>
        rw [hs] at h
        cases r with
        | error e => cases h.2
        | ok running => exact ⟨running, st', rfl⟩

theorem earlier {c : Config} {functions : GoMap (Bytes → Res Value)} (h1 : mapGet functions "integer" = some (integerParse []))
    (h2 : mapGet functions "string" = some (fun cell => .ok (.str cell))) :
    ∀ r ∈ runs c, EarlierStart (StoredFilesExample.startLib FilesExample.noParsers) FilesExample.machine StoredFilesExample.storage RestartExample.parsed functions c r := by
  have hsame : Reordered c c := ⟨.refl _, .refl _, .refl _, .refl _, .refl _⟩
  intro r hr
  simp only [runs, List.mem_cons, List.not_mem_nil, or_false] at hr
  rcases hr with rfl | rfl
  · exact Spec.StartsOf.earlier (runs := [_]) (by intro r hr; cases List.mem_singleton.1 hr; exact ⟨rfl, hsame⟩) _ List.mem_cons_self
  · refine ⟨hsame, ⟨rfl, rfl, rfl⟩, ?_, ?_⟩
    · intro x hx
      cases List.mem_singleton.1 hx
      exact .inr (.inl (by dsimp only; decide))
    · intro x hx _ d hd _ e i he ho
      cases List.mem_singleton.1 hx
      simp only [RestartExample.parsed, List.mem_cons, IndexDecl.wildcard.injEq, reduceCtorEq, List.not_mem_nil, or_false] at hd
      subst hd
      have hi : i = input := by
        rw [show e = completedInput (.csv FilesExample.decl) from he] at ho
        have : openInput longer (completedInput (.csv FilesExample.decl)) (declaredTypes RestartExample.parsed) functions = .ok input := by
          have hcolumns : CsvDecl.csvColumns { FilesExample.decl with columns := [⟨"n", "integer"⟩, ⟨"s", "string"⟩] } functions =
              [⟨"n", integerParse []⟩, ⟨"s", fun cell => .ok (.str cell)⟩] := by
            simp only [CsvDecl.csvColumns, List.map_cons, List.map_nil, h1, h2]
          unfold input
          rw [← hcolumns]
          rfl
        rw [this] at ho
        exact (Except.ok.inj ho).symm
      subst hi
      refine ⟨?_, by unfold Int64Range; dsimp only; decide, ?_, by decide +kernel⟩
      · intro content hc
        cases hc
        decide
      · intro rs hrs rec hrec
        have hb : positionsFit = true := by decide +kernel
        unfold positionsFit at hb
        rw [hrs] at hb
        have := List.all_eq_true.1 hb _ hrec
        simp only [Bool.and_eq_true, decide_eq_true_eq] at this
        exact this
end OtherFilesExample

/-- A line is added to the data file of the example, and the program does not start. Once the line is removed again, it starts, and starting once more changes nothing. -/
example : ∃ c e st running st', startOn ((StoredFilesExample.startLib FilesExample.noParsers).onFiles OtherFilesExample.longer)
      (afterProgramRuns (StoredFilesExample.startLib FilesExample.noParsers) StoredFilesExample.storage [⟨FilesExample.machine, c, none⟩]) c = (.error e, st) ∧
    startOn RestartExample.startLib (afterProgramRuns (StoredFilesExample.startLib FilesExample.noParsers) StoredFilesExample.storage (OtherFilesExample.runs c)) c = (.ok running, st') ∧
    startOn RestartExample.startLib st' c = (.ok running, st') := by
  obtain ⟨hd, c, hload, hc⟩ := RestartExample.loads
  obtain ⟨c', hc', ⟨e, st, hrefused⟩, running, st', hstart⟩ := OtherFilesExample.starts
  rw [hc] at hc'
  cases hc'
  obtain ⟨texts, functions, hruns, h⟩ := C112_again RestartExample.file ConfigExample.lib "rodb.yaml" _ hd c hload RestartExample.own (StoredFilesExample.startLib FilesExample.noParsers)
    FilesExample.machine StoredFilesExample.storage (fun _ _ => .refl _) (OtherFilesExample.runs c)
    (noneInGap_of (by
      intro r hr death hd
      simp only [OtherFilesExample.runs, List.mem_cons, List.not_mem_nil, or_false] at hr
      rcases hr with rfl | rfl <;> cases hd)) c ⟨.refl _, .refl _, .refl _, .refl _, .refl _⟩ running st' hstart
  obtain ⟨p1, p2⟩ := RestartExample.parser hruns
  exact ⟨c, e, st, running, st', hrefused, hstart,
    (h JsonExample.parse StoredFilesExample.asked StoredFilesExample.tables (RestartExample.data p1 p2) (RestartExample.stored p1 p2) (OtherFilesExample.earlier p1 p2)).1⟩

/-- In `StoredFilesExample` every index has a place of its own. -/
theorem RestartExample.apart : OwnFiles StoredFilesExample.parsed ∧ OwnPlaces ConfigExample.lib StoredFilesExample.parsed := by
  constructor <;> intro i hi j hj
  all_goals
    simp only [StoredFilesExample.parsed, List.mem_cons, List.not_mem_nil, or_false] at hi hj
    rcases hi with rfl | rfl | rfl <;> rcases hj with rfl | rfl | rfl <;> first
      | exact .inl rfl
      | exact .inr ⟨fun _ _ h1 h2 => (by first | (cases h1; done) | (cases h2; done)), fun _ _ h1 h2 => (by first | (cases h1; done) | (cases h2; done) | (cases h1; cases h2; decide))⟩

/-- The program of `ProgramExample`, stopped and started again on what the first start has left on the machine, answers `/all?part=B&number=1` with one of its two objects with the number 1. -/
example (service : ServiceLib) (hlib : RegexpContract service.find) (hencode : service.encode = encodeJson JsonExample.format) : ∃ c running st',
    loadConfigFile ProgramExample.file ConfigExample.lib "rodb.yaml" = .ok c ∧
    startOn RestartExample.startLib (afterProgramRuns (StoredFilesExample.startLib FilesExample.noParsers) StoredFilesExample.storage [⟨FilesExample.machine, c, none⟩]) c = (.ok running, st') ∧
    ∃ routes, mapGet running "web" = some ("application/json", routes) ∧ ∀ old, ∃ response,
      serveTarget service "application/json" routes old id "GET" "" ProgramExample.target (.ok []) = some response ∧
        response.status = 200 ∧ ∃ row : GoMap Value, encodeJson JsonExample.format (.arr [.obj row]) = .ok response.body ∧
          row.lookup "n" = some (.int 1) ∧ row.lookup "s" = some (.str [98]) := by
  obtain ⟨hd, c, hload, hc⟩ := ProgramExample.loads
  obtain ⟨c', hc', running, hstart⟩ := StoredFilesExample.starts
  rw [hc] at hc'
  cases hc'
  have hsame : Reordered c c := ⟨.refl _, .refl _, .refl _, .refl _, .refl _⟩
  have hfirst : startOn RestartExample.startLib StoredFilesExample.storage c = (.ok running, (startOn RestartExample.startLib StoredFilesExample.storage c).2) := by
    refine Prod.ext ?_ rfl
    rw [RestartExample.startLib, C112_alone ConfigExample.lib _ c c hc hsame RestartExample.apart.1 (StoredFilesExample.startLib FilesExample.noParsers) FilesExample.machine
      StoredFilesExample.storage]
    exact hstart
  generalize hst : (startOn RestartExample.startLib StoredFilesExample.storage c).2 = st' at hfirst
  obtain ⟨texts, functions, hruns, h⟩ := C112_again ProgramExample.file ConfigExample.lib "rodb.yaml" _ hd c hload RestartExample.apart.2 (StoredFilesExample.startLib FilesExample.noParsers)
    FilesExample.machine StoredFilesExample.storage (fun _ _ => .refl _) [] trivial c hsame running st' hfirst
  obtain ⟨p1, p2⟩ := RestartExample.parser hruns
  have hsecond : startOn RestartExample.startLib (afterProgramRuns (StoredFilesExample.startLib FilesExample.noParsers) StoredFilesExample.storage [⟨FilesExample.machine, c, none⟩]) c = (.ok running, st') := by
    rw [show afterProgramRuns (StoredFilesExample.startLib FilesExample.noParsers) StoredFilesExample.storage [⟨FilesExample.machine, c, none⟩] = st' from hst]
    exact (h JsonExample.parse StoredFilesExample.asked StoredFilesExample.tables (StoredFilesExample.data p1 p2) (StoredFilesExample.stored p1 p2) (by intro r hr; cases hr)).1
  refine ⟨c, running, st', hload, hsecond, ?_⟩
  obtain ⟨texts, functions, hruns, h⟩ := C112_list_partial ProgramExample.file ConfigExample.lib "rodb.yaml" _ hd c hload RestartExample.apart.2 (StoredFilesExample.startLib FilesExample.noParsers)
    goInsertionSort_contract FilesExample.machine (fun _ _ _ => .refl _) StoredFilesExample.storage (fun _ _ => .refl _) [⟨FilesExample.machine, c, none⟩]
    (noneInGap_of (by intro r hr death hd; cases List.mem_singleton.1 hr; cases hd)) c hsame running st' hsecond
    service hlib _ hencode JsonExample.parse
  obtain ⟨p1, p2⟩ := RestartExample.parser hruns
  obtain ⟨env, apis, rfl, hrun, h⟩ := h StoredFilesExample.asked StoredFilesExample.tables StoredFilesExample.plain_default (StoredFilesExample.data p1 p2) (StoredFilesExample.stored p1 p2)
    (Spec.StartsOf.earlier (by intro r hr; cases List.mem_singleton.1 hr; exact ⟨rfl, hsame⟩))
  obtain ⟨routes, h1, hk, h2⟩ := h StoredFilesExample.web (.head _) 0 (by decide) StoredFilesExample.list (.head _) "/all".toList [] rfl (JsonFilesExample.good _ (by unfold PlainText; decide)) []
    trivial (by simp) (by simp) (by decide) StoredFilesExample.fits
  refine ⟨routes, h1, fun old => ?_⟩
  obtain ⟨given, h4, _, h6⟩ := h2 old id (fun _ => .refl _) _ _ _ ProgramExample.text rfl ⟨[], trivial, rfl⟩ (by simp) "" (.ok [])
  match given, h4 with
  | [], _ =>
    obtain ⟨kept, hkept, h7⟩ := h6 [("part", [66]), ("number", [49])] (fun _ => by rw [← mapGet_eq_lookup]; rfl)
      [⟨"w", "s", .str [66]⟩, ⟨"q", "n", .int 1⟩] 100 0 ⟨rfl, rfl, ⟨_, p2, rfl⟩, rfl, rfl, ⟨_, p1, rfl⟩, trivial⟩
      (by
        intro c hc
        simp only [List.mem_cons, List.not_mem_nil, or_false] at hc
        rcases hc with rfl | rfl
        · exact StoredFilesExample.askable_w _ (by decide)
        · exact StoredFilesExample.askable_q _ _ (.int _))
      (.inl ⟨rfl, rfl⟩) (.inl ⟨rfl, rfl⟩) (by decide)
    simp only [hkept.all_eq (by decide)] at h7
    obtain ⟨response, g1, g2, _, rows, g4, g5, g6⟩ := h7
    have hwindow : (StoredFilesExample.tables StoredFilesExample.list.input).filter (fun o => [(⟨"w", "s", .str [66]⟩ : Condition), ⟨"q", "n", .int 1⟩].all
        (fun c => foundIn ConfigExample.lib StoredFilesExample.storage StoredFilesExample.parsed c.index c.property c.value o)) = [[("n", .int 1), ("s", .str [98])]] := by
      simp only [List.all_cons, List.all_nil, Bool.and_true, StoredFilesExample.found_w, StoredFilesExample.found_q]
      rfl
    simp only [hwindow] at g5 g6
    match rows, g4, g5, g6 with
    | [row], g4, _, g6 =>
      obtain ⟨g7, _⟩ := g6 0 (by decide) (by simp)
      exact ⟨response, g1, g2, row, g4, g7 _ (by decide), g7 _ (by decide)⟩

/-! ### A start that is killed while the file of a wildcard index gets its last bytes -/

namespace KilledExample
def lib : StartLib := StoredFilesExample.startLib FilesExample.noParsers
/-- The start is killed when 200 of the 403 bytes of the wildcard index are in its file. -/
def killed (c : Config) : Run := ⟨FilesExample.machine, c, some ⟨0, 0, 200⟩⟩
/-- Does the first route of the service "web" answer with one row, or fail? -/
def answers (running : GoMap (String × List Route)) : Option Bool :=
  match mapGet running "web" with
  | some (kind, route :: _) =>
    if kind = "application/json" then
      match route.output.handle [("part", [98])] [] with
      | .data (.arr [_]) => some true
      | .error _ => some false
      | _ => none
    else none
  | _ => none
def outcome (c : Config) : Option (Bool × Bool) :=
  match startOn RestartExample.startLib (afterProgramRuns lib StoredFilesExample.storage [killed c]) c, startOn RestartExample.startLib StoredFilesExample.storage c with
  | (.ok again, _), (.ok new, _) =>
    match answers again, answers new with
    | some a, some b => some (a, b)
    | _, _ => none
  | _, _ => none

theorem answers_eq {running : GoMap (String × List Route)} {a : Bool} (h : answers running = some a) :
    ∃ (route : Route) (others : List Route), mapGet running "web" = some ("application/json", route :: others) ∧
      if a then ∃ row, route.output.handle [("part", [98])] [] = .data (.arr [row]) else ∃ e, route.output.handle [("part", [98])] [] = .error e := by
  unfold answers at h
  split at h
  · rename_i kind route others e
    split at h
    · rename_i hk
      subst hk
      refine ⟨route, others, e, ?_⟩
      split at h
      · rename_i row e2
        cases h
        exact ⟨row, e2⟩
      · rename_i e2
        cases h
        exact ⟨_, e2⟩
      · cases h
    · cases h
  · cases h

theorem starts : ∃ c, loadConfig ConfigExample.lib RestartExample.parsed = .ok c ∧ outcome c = some (false, true) := by
  have h : (match loadConfig ConfigExample.lib RestartExample.parsed with
      | .ok c => outcome c
      | .error _ => none) = some (false, true) := by decide +kernel
  cases hc : loadConfig ConfigExample.lib RestartExample.parsed with
  | error e => rw [hc] at h; cases h
  | ok c =>
    rw [hc] at h
    exact ⟨c, rfl, h⟩
end KilledExample

/-- **C112** is false for a start that is killed while the last bytes of a wildcard index are written to its file, which already says that it is complete (wildcard.go:127-132): the next start accepts
the file, and then a search for "b" fails that finds a row on a machine where no start was killed. -/
theorem C112_false : ∃ (config : ConfigLib) (p : ParsedConfig) (c : Config) (lib : StartLib) (st : Storage) (files : Files) (death : Death) (again new : GoMap (String × List Route)) (st' st'' : Storage),
    loadConfig config p = .ok c ∧ OwnPlaces config p ∧ PlansPermute st.sql ∧
    startOn (lib.onFiles files) (afterProgramRuns lib st [⟨files, c, some death⟩]) c = (.ok again, st') ∧ startOn (lib.onFiles files) st c = (.ok new, st'') ∧
    ∃ (broken right : Route) (others others' : List Route), mapGet again "web" = some ("application/json", broken :: others) ∧ mapGet new "web" = some ("application/json", right :: others') ∧
      (∃ e, broken.output.handle [("part", [98])] [] = .error e) ∧ ∃ row, right.output.handle [("part", [98])] [] = .data (.arr [row]) := by
  obtain ⟨c, hload, h⟩ := KilledExample.starts
  unfold KilledExample.outcome at h
  split at h
  · rename_i again st' new st'' e1 e2
    split at h
    · rename_i a b k1 k2
      cases h
      obtain ⟨broken, others, m1, g1⟩ := KilledExample.answers_eq k1
      obtain ⟨right, others', m2, g2⟩ := KilledExample.answers_eq k2
      exact ⟨ConfigExample.lib, RestartExample.parsed, c, KilledExample.lib, StoredFilesExample.storage, FilesExample.machine, ⟨0, 0, 200⟩, again, new, st', st'', hload, RestartExample.own,
        fun _ _ => .refl _, e1, e2, broken, right, others, others', m1, m2, by simpa using g1, by simpa using g2⟩
    · cases h
  · cases h

end Rodb
