import Verif.Spec.Concurrent
import Verif.Proofs.ConcurrentXml
import Verif.Proofs.WellFormed
import Verif.Props.StoredFilesProps
import Verif.Props.XmlFilesProps
/-
  C110: requests that are handled at the same time do not disturb each other.
-/
namespace Rodb
open Spec

theorem onFiles_name {rest : StartLib} {files : Files} {parsers : GoMap TextParser} {d : InputDecl} {input : Input}
    (h : InputDecl.instantiate (rest.onFiles files) parsers d = .ok input) : input.name = d.name := by
  have hopen : ∀ d' types functions, openInput files d' types functions = .ok input → input.name = d'.name := by
    intro d' types functions h
    cases d' with
    | csv c =>
      simp only [openInput, openCsvInput] at h
      split at h
      · cases h
      · cases hc : c.comma with
        | error e => rw [hc] at h; cases h
        | ok comma => rw [hc] at h; cases h; rfl
    | json c =>
      simp only [openInput, openJsonInput] at h
      split at h
      · cases h
      · cases h; rfl
    | xml c =>
      simp only [openInput, openXmlInput] at h
      split at h
      · cases h
      · cases h; rfl
  cases d with
  | csv c =>
    simp only [InputDecl.instantiate, CsvDecl.instantiate, bind_ok] at h
    obtain ⟨_, _, columns, _, _, _, h⟩ := h
    exact hopen (.csv { c with columns := columns }) (parserTypes parsers) (parseFunctions (rest.onFiles files) parsers) h
  | json c => exact hopen (.json c) (parserTypes parsers) (parseFunctions (rest.onFiles files) parsers) h
  | xml c => exact hopen (.xml c) (parserTypes parsers) (parseFunctions (rest.onFiles files) parsers) h

/-- Fewer positions are asked. -/
theorem GetSteps.Computes.mono {g : GetSteps} {fetch : Int → Res Rec} {A B : Int → Prop} {Idle : g.Shared → Prop} {Mid : Int → g.Call → g.Shared → Prop} (h : g.Computes fetch A Idle Mid)
    (hab : ∀ p, B p → A p) : g.Computes fetch B Idle Mid :=
  ⟨h.opened, fun hi hp => h.enter hi (hab _ hp), h.step, h.result, h.finishes⟩

/-- `Get` of a CSV or JSON input of the program returns, one call at a time, what the input returns. -/
theorem getSteps_computes {rest : StartLib} {files : Files} {parsers : GoMap TextParser} {d : InputDecl} {input : Input}
    (h : InputDecl.instantiate (rest.onFiles files) parsers d = .ok input) (hxml : ∀ x, d ≠ .xml x) (Asked : Int → Prop) :
    ∃ Idle Mid, (d.getSteps (rest.onFiles files) files parsers).Computes input.fetch Asked Idle Mid := by
  cases d with
  | xml c => exact absurd rfl (hxml c)
  | json c =>
    replace h : openJsonInput files c = .ok input := h
    simp only [openJsonInput] at h
    simp only [InputDecl.getSteps]
    split at h
    · cases h
    · rename_i content hcontent
      cases h
      rw [hcontent]
      exact ⟨_, _, (jsonGet_computes files.decodeJson content).mono (fun _ _ => trivial)⟩
  | csv c =>
    simp only [InputDecl.instantiate, CsvDecl.instantiate, bind_ok] at h
    obtain ⟨_, _, columns, hcolumns, _, _, h⟩ := h
    replace h : openCsvInput files { c with columns := columns } (parseFunctions (rest.onFiles files) parsers) = .ok input := h
    simp only [openCsvInput] at h
    simp only [InputDecl.getSteps, hcolumns]
    split at h
    · cases h
    · rename_i content hcontent
      replace hcontent : files.content c.path = some content := hcontent
      rw [hcontent]
      rw [show ({ c with columns := columns } : CsvDecl).comma = c.comma from rfl] at h
      cases hc : c.comma with
      | error e => rw [hc] at h; cases h
      | ok comma =>
        rw [hc] at h
        cases h
        rw [hcolumns]
        refine ⟨_, _, (csvGet_computes _ content _ (fun p sched => ?_)).mono (fun _ _ => trivial)⟩
        exact csvFetch_same _ _ _ (by rfl) p

/-- `Get` of an XML input of the program returns, one call at a time, what the input returns, for the positions of its records. -/
theorem xmlSteps_computes {rest : StartLib} {files : Files} {parsers : GoMap TextParser} {d : XmlDecl} {input : Input}
    (h : InputDecl.instantiate (rest.onFiles files) parsers (.xml d) = .ok input)
    (hdoc : ∃ content nodes P, SteadyLexer files.lexXml ∧ files.content d.path = some content ∧ LooksFor (files.xpath.matching d.recordXPath) P ∧ IsDocument files.lexXml content nodes ∧ Straight P nodes)
    (hfetched : ∀ records, input.scan = .ok records → ∀ position, ∀ before ∈ files.fetchedXml d.name position, ScanPosition records before) :
    ∃ records Idle Mid, input.scan = .ok records ∧ (InputDecl.getSteps (rest.onFiles files) files parsers (.xml d)).Computes input.fetch (ScanPosition records) Idle Mid := by
  obtain ⟨content, nodes, P, hlex, hcontent, hlooks, hd, hstraight⟩ := hdoc
  replace h : openXmlInput files d (parserTypes parsers) (parseFunctions (rest.onFiles files) parsers) = .ok input := h
  simp only [openXmlInput, hcontent, Except.ok.injEq] at h
  subst h
  have hsteps : InputDecl.getSteps (rest.onFiles files) files parsers (.xml d) =
      xmlGet files.lexXml (files.xpath.matching d.recordXPath) (d.record files.xpath (parserTypes parsers) (parseFunctions (rest.onFiles files) parsers)) content := by
    rw [InputDecl.getSteps, hcontent]
  rw [hsteps]
  clear hsteps
  generalize hmake : d.record files.xpath (parserTypes parsers) (parseFunctions (rest.onFiles files) parsers) = make at hfetched
  have hpos : ∀ node q, (make node q).position = q := by intro node q; rw [← hmake]; rfl
  obtain ⟨positions, _, _, _, hscan⟩ := C98_xml_scan files.lexXml hlex _ P hlooks make content nodes hd
  obtain ⟨records, hrecords⟩ : ∃ records : List Rec, Placed make (recordsIn P nodes) positions = records.map .ok :=
    ⟨((recordsIn P nodes).zip positions).map (fun x => make x.1 x.2), by simp [Placed]⟩
  rw [hrecords] at hscan
  have hin : ∀ p, ScanPosition (records.map .ok) p → ∃ r ∈ records, r.position = p := by
    rintro p ⟨r, hr, e⟩
    obtain ⟨x, hx, e'⟩ := List.mem_map.1 hr
    cases e'
    exact ⟨_, hx, e⟩
  have hcomp := xmlGet_computes files.lexXml hlex _ P hlooks make hpos content nodes hd hstraight records hscan
    (xmlAsInput files.lexXml (files.xpath.matching d.recordXPath) make d.name content (files.modTimeNs d.path) (files.fetchedXml d.name)).fetch (fun r hr =>
      C99_xml_fetch_partial files.lexXml hlex _ P hlooks make hpos content nodes hd hstraight records hscan _ (fun q hq => hin q (hfetched _ hscan _ q hq)) r hr)
  exact ⟨records.map .ok, _, _, hscan, hcomp.mono hin⟩

/-- What `Get` of the input with this name returns. -/
def fetchOf (lib : StartLib) (parsers : GoMap TextParser) (c : Config) (name : String) (position : Int) : Res Rec :=
  match c.inputs.find? (fun e => e.2.name = name) with
  | none => .error (.err "There is no such input")
  | some e =>
    match InputDecl.instantiate lib parsers e.2 with
    | .error e => .error e
    | .ok input => input.fetch position

theorem find_named {m : GoMap InputDecl} (hr : Registered InputDecl.name m) {k : String} {d : InputDecl} (h : (k, d) ∈ m) :
    m.find? (fun e => e.2.name = d.name) = some (k, d) := by
  obtain ⟨hn, hk⟩ := hr
  induction m with
  | nil => cases h
  | cons e m ih =>
    rw [List.map_cons, List.nodup_cons] at hn
    rcases List.mem_cons.1 h with rfl | h'
    · rw [List.find?_cons_of_pos]
      simp
    · rw [List.find?_cons_of_neg]
      · exact ih h' hn.2 (fun k x hx => hk k x (.tail _ hx))
      · simp only [decide_eq_true_eq]
        intro he
        rw [(hk e.1 e.2 (.head _)).1, (hk k d h).1] at he
        exact hn.1 (by rw [he]; exact List.mem_map.2 ⟨_, h', rfl⟩)

theorem registered_perm {α : Type} {name : α → String} {a b : GoMap α} (h : a.Perm b) (hr : Registered name a) : Registered name b :=
  ⟨(h.map _).nodup_iff.1 hr.1, fun k x hx => hr.2 k x (h.mem_iff.2 hx)⟩

theorem start_inputs {lib : StartLib} {c : Config} {running : GoMap (String × List Route)} {parsers : GoMap TextParser} (h : start lib c = .ok running)
    (hparsers : instantiateMap (ParserDecl.instantiate lib) c.parsers = .ok parsers) : ∀ e ∈ c.inputs, ∃ input, InputDecl.instantiate lib parsers e.2 = .ok input := by
  simp only [start, hparsers, bind_ok] at h
  obtain ⟨parsers', h0, inputs, h, _⟩ := h
  cases h0
  have : ∀ (m : GoMap InputDecl) (r : GoMap Input), instantiateMap (InputDecl.instantiate lib parsers) m = .ok r → ∀ e ∈ m, ∃ input, InputDecl.instantiate lib parsers e.2 = .ok input := by
    intro m
    induction m with
    | nil => intro r _ e he; cases he
    | cons x m ih =>
      intro r hr e he
      obtain ⟨k, x⟩ := x
      simp only [instantiateMap, bind_ok] at hr
      obtain ⟨y, h1, rest, h2, _⟩ := hr
      rcases List.mem_cons.1 he with rfl | he
      · exact ⟨y, h1⟩
      · exact ih rest h2 e he
  exact this _ _ h

/-- The program in which `Get` returns what it returns. -/
theorem start_fetchOf {rest : StartLib} {files : Files} {c : Config} {running : GoMap (String × List Route)} {parsers : GoMap TextParser} (hr : Registered InputDecl.name c.inputs)
    (h : start (rest.onFiles files) c = .ok running) (hparsers : instantiateMap (ParserDecl.instantiate (rest.onFiles files)) c.parsers = .ok parsers) :
    start ((rest.onFiles files).withFetch (fetchOf (rest.onFiles files) parsers c)) c = .ok running := by
  rw [← h]
  have hinputs : instantiateMap (InputDecl.instantiate ((rest.onFiles files).withFetch (fetchOf (rest.onFiles files) parsers c)) parsers) c.inputs =
      instantiateMap (InputDecl.instantiate (rest.onFiles files) parsers) c.inputs := by
    refine instantiateMap_congr _ (fun e he => ?_)
    rw [inputInstantiate_withFetch]
    obtain ⟨input, hi⟩ := start_inputs h hparsers e he
    rw [hi]
    show Except.ok _ = Except.ok _
    congr 1
    have : fetchOf (rest.onFiles files) parsers c input.name = input.fetch := by
      funext p
      rw [onFiles_name hi, fetchOf, find_named hr he]
      simp only [hi]
    rw [Input.withFetch, this]
  have h1 : instantiateMap (ParserDecl.instantiate ((rest.onFiles files).withFetch (fetchOf (rest.onFiles files) parsers c))) c.parsers =
    instantiateMap (ParserDecl.instantiate (rest.onFiles files)) c.parsers := rfl
  simp only [start, h1, hparsers, bind, Except.bind, hinputs]
  rfl

/-- The positions that are asked: of XML inputs, only positions of records. -/
def AskedRecord (lib : StartLib) (parsers : GoMap TextParser) (c : Config) (name : String) (position : Int) : Prop := NamesXml c name → RecordPosition lib parsers c name position

theorem registered_same {c : Config} (hr : Registered InputDecl.name c.inputs) {k k' : String} {d d' : InputDecl} (h : (k, d) ∈ c.inputs) (h' : (k', d') ∈ c.inputs) (hn : d.name = d'.name) :
    d = d' := by
  have h1 := find_named hr h
  have h2 := find_named hr h'
  rw [hn, h2] at h1
  cases h1
  rfl

theorem getOf_computes {rest : StartLib} {files : Files} {p : ParsedConfig} {c : Config} {running : GoMap (String × List Route)} {parsers : GoMap TextParser}
    (hr : Registered InputDecl.name c.inputs) (hc : ShareableXml (rest.onFiles files) files parsers p c)
    (h : start (rest.onFiles files) c = .ok running) (hparsers : instantiateMap (ParserDecl.instantiate (rest.onFiles files)) c.parsers = .ok parsers) (name : String) :
    ∃ Idle Mid, (getOf (rest.onFiles files) files parsers c name).Computes (fetchOf (rest.onFiles files) parsers c name) (AskedRecord (rest.onFiles files) parsers c name) Idle Mid := by
  cases hf : c.inputs.find? (fun e => e.2.name = name) with
  | none =>
    have h1 : getOf (rest.onFiles files) files parsers c name = noGet := by rw [getOf, hf]
    have h2 : fetchOf (rest.onFiles files) parsers c name = fun _ => .error (.err "There is no such input") := by funext p; rw [fetchOf, hf]
    rw [h1, h2]
    exact ⟨_, _, noGet_computes.mono (fun _ _ => trivial)⟩
  | some e =>
    have he := List.mem_of_find?_eq_some hf
    have hname : e.2.name = name := by simpa using List.find?_some hf
    obtain ⟨input, hi⟩ := start_inputs h hparsers e he
    have h1 : getOf (rest.onFiles files) files parsers c name = e.2.getSteps (rest.onFiles files) files parsers := by rw [getOf, hf]
    have h2 : fetchOf (rest.onFiles files) parsers c name = input.fetch := by funext p; rw [fetchOf, hf]; simp only [hi]
    rw [h1, h2]
    by_cases hx : ∃ x, e.2 = .xml x
    · obtain ⟨d, hd⟩ := hx
      obtain ⟨k, e2⟩ := e
      simp only at hd hname
      subst hd
      have hrec : ∀ {q : Int}, RecordPosition (rest.onFiles files) parsers c name q → ∀ records, input.scan = .ok records → ScanPosition records q := by
        rintro q ⟨k', d', input', records', r, g1, g2, g3, g4, g5, g6⟩ records hscan
        obtain rfl := registered_same hr g1 he (g2.trans hname.symm)
        rw [hi] at g3
        cases g3
        rw [hscan] at g4
        cases g4
        exact ⟨r, g5, g6⟩
      obtain ⟨records, Idle, Mid, hscan, hcomp⟩ := xmlSteps_computes hi (hc.documents k d he) (fun records hscan position before hb =>
        hrec (by have := hc.fetched k d he position before hb; rwa [show d.name = name from hname] at this) records hscan)
      exact ⟨Idle, Mid, hcomp.mono (fun q hq => hrec (hq ⟨k, d, he, hname⟩) records hscan)⟩
    · exact getSteps_computes hi (fun x hx' => hx ⟨x, hx'⟩) _

/-- The inputs of the loaded configuration are the declared ones, with their default settings. -/
theorem loaded_inputs {config : ConfigLib} {p : ParsedConfig} {c : Config} (h : loadConfig config p = .ok c) {name : String} {d : InputDecl} (hd : (name, d) ∈ c.inputs) :
    ∃ x ∈ p.inputs, name = x.name ∧ d = completedInput x := by
  simp only [loadConfig, bind_ok] at h
  obtain ⟨c0, h0, h⟩ := h
  have hc := (newConfig_ok p).1 c0 h0
  simp only [Config.validate, bind_ok, ok_inj] at h
  obtain ⟨parsers, h1, inputs, h2, indexes, h3, services, h4, outputs, h5, rfl⟩ := h
  obtain ⟨x, hx, hx'⟩ := validateMap_mem h2 hd
  have hv := InputDecl.validate_value hx'
  clear hx'
  subst hc
  obtain ⟨y, hy, e⟩ := List.mem_map.1 (show (name, x) ∈ p.inputs.map (fun x => (x.name, x)) from hx)
  cases e
  exact ⟨_, hy, rfl, hv⟩

theorem loaded_files {config : ConfigLib} {p : ParsedConfig} {c : Config} (h : loadConfig config p = .ok c) (hp : ∀ d, .xml d ∉ p.inputs) (name : String) (d : XmlDecl) :
    (name, .xml d) ∉ c.inputs := by
  intro hd
  obtain ⟨x, hx, _, he⟩ := loaded_inputs h hd
  cases x with
  | csv c => cases he
  | json c => cases he
  | xml c => exact hp c hx

/-- The requests can be handled: there is, for every request, a sequence of calls of `Get` that performs it. -/
theorem C110_requests_can_be_handled (lib : StartLib) (files : Files) (st : Storage) (hst : lib.index = openIndex st) (c : Config) (service : ServiceLib) :
    ∃ handle, HandlesRequests (lib.onFiles files) c service handle := by
  have hlib : IndexesFetchFree (lib.onFiles files) := openIndex_fetchFree (st := st) hst
  have key := respond_steps (Asked := fun _ _ => True) hlib c (fun _ _ _ _ _ _ _ _ _ _ _ _ _ _ _ _ _ => trivial) service
  exact ⟨fun q => (key q).choose, fun q => (key q).choose_spec.2⟩

/-- The positions that the indexes of the program give. -/
theorem indexes_give {lib : StartLib} {files : Files} {st : Storage} (hst : lib.index = openIndex st) {c : Config} (hr : Registered InputDecl.name c.inputs) {parsers : GoMap TextParser}
    (hparsers : instantiateMap (ParserDecl.instantiate (lib.onFiles files)) c.parsers = .ok parsers) (hstored : StoredGiveRecords (lib.onFiles files) parsers c) :
    IndexesGive (lib.onFiles files) c (AskedRecord (lib.onFiles files) parsers c) := by
  intro parsers' inputs indexes hp hin hix name index hindex
  rw [hparsers] at hp
  cases hp
  obtain ⟨x, hx, hxi⟩ := instantiateMap_name hix hindex
  replace hx := mapGet_mem hx
  have hdecl : ∀ {n input}, mapGet inputs n = some input → ∃ d, (n, d) ∈ c.inputs ∧ InputDecl.instantiate (lib.onFiles files) parsers d = .ok input ∧ input.name = d.name := by
    intro n input h
    obtain ⟨d, hd, hi⟩ := instantiateMap_name hin h
    exact ⟨d, mapGet_mem hd, hi, onFiles_name hi⟩
  have hfind : ∀ {n input}, findInput inputs n = .ok input → mapGet inputs n = some input := by
    intro n input h
    unfold findInput at h
    split at h
    · cases h
    · cases h
      assumption
  have hrecord : ∀ {n input}, mapGet inputs n = some input → ∀ {records p}, input.scan = .ok records → ScanPosition records p → RecordPosition (lib.onFiles files) parsers c input.name p := by
    intro n input h records p hs hsp
    obtain ⟨d, hd, hi, hn⟩ := hdecl h
    obtain ⟨r, h1, h2⟩ := hsp
    exact ⟨n, d, input, records, r, hd, hn.symm, hi, hs, h1, h2⟩
  have hsto : ∀ {n : String} {input0 : Input}, findInput inputs n = .ok input0 → inputOfIndex x = some n → ¬ FindsEqual x → (lib.onFiles files).index x input0 = .ok index →
      (∀ input filters it, index input filters = .ok it → input.name = n) → GivesAsked (AskedRecord (lib.onFiles files) parsers c) inputs index := by
    intro n input0 hf hinput hneq hopen hname m input hm filters it hit p hp hxml
    have hn := hname input filters it hit
    obtain ⟨d0, hd0, hi0, hn0⟩ := hdecl (hfind hf)
    obtain ⟨d1, hd1, hi1, hn1⟩ := hdecl hm
    obtain ⟨k, d, hd, he⟩ := hxml
    have hk := (hr.2 _ _ hd0).1
    obtain rfl := registered_same hr hd hd0 (he.trans (hn.trans hk.symm))
    obtain rfl := registered_same hr hd hd1 (he.trans hn1)
    rw [hi0] at hi1
    cases hi1
    have := hstored name x hx hneq k d hd (by rw [hinput, ← hn]; exact congrArg some he.symm) input0 hi0 index hopen filters it hit p hp
    rw [← he]
    exact this
  cases x with
  | noop n =>
    cases hxi
    intro n' input hm filters it hit p hp _
    obtain ⟨records, h1, h2⟩ := noop_within hit
    exact hrecord hm h1 (h2 p hp)
  | map m =>
    simp only [IndexDecl.instantiate, bind_ok, ok_inj] at hxi
    obtain ⟨input0, hf, m', hm', rfl⟩ := hxi
    intro n' input hm filters it hit p hp _
    obtain ⟨h1, records, h2, h3⟩ := map_within hm' hit
    rw [h1]
    exact hrecord (hfind hf) h2 (h3 p hp)
  | wildcard w =>
    simp only [IndexDecl.instantiate, bind_ok] at hxi
    obtain ⟨input0, hf, hopen⟩ := hxi
    refine hsto hf rfl (fun h => by rcases h with ⟨_, h⟩ | ⟨_, h⟩ <;> cases h) hopen (fun input filters it hit => ?_)
    have hopen' : lib.index (.wildcard w) input0 = .ok index := hopen
    rw [hst] at hopen'
    simp only [openIndex, bind_ok, ok_inj] at hopen'
    obtain ⟨w', hw', rfl⟩ := hopen'
    have hn : w'.inputName = input0.name := by
      unfold newWildcard at hw'
      split at hw'
      · split at hw' <;> cases hw'
        rfl
      · split at hw' <;> cases hw'
        rfl
    obtain ⟨d0, hd0, hi0, hn0⟩ := hdecl (hfind hf)
    have hk := (hr.2 _ _ hd0).1
    simp only [Wildcard.getRecordPositions] at hit
    by_cases he : input.name = w'.inputName
    · rw [he, hn, hn0, hk]
    · rw [if_pos he] at hit
      cases hit
  | sqlite w =>
    simp only [IndexDecl.instantiate, bind_ok] at hxi
    obtain ⟨input0, hf, hopen⟩ := hxi
    refine hsto hf rfl (fun h => by rcases h with ⟨_, h⟩ | ⟨_, h⟩ <;> cases h) hopen (fun input filters it hit => ?_)
    have hopen' : lib.index (.sqlite w) input0 = .ok index := hopen
    rw [hst] at hopen'
    simp only [openIndex, sqliteIndex] at hopen'
    split at hopen'
    · cases hopen'
      simp only [sqliteGetRecordPositions] at hit
      by_cases he : input.name = w.input
      · exact he
      · rw [if_pos he] at hit
        cases hit
    · cases hopen'
  | fts5 w =>
    simp only [IndexDecl.instantiate, bind_ok] at hxi
    obtain ⟨input0, hf, hopen⟩ := hxi
    refine hsto hf rfl (fun h => by rcases h with ⟨_, h⟩ | ⟨_, h⟩ <;> cases h) hopen (fun input filters it hit => ?_)
    have hopen' : lib.index (.fts5 w) input0 = .ok index := hopen
    rw [hst] at hopen'
    simp only [openIndex, fts5Index] at hopen'
    split at hopen'
    · cases hopen'
      simp only [fts5GetRecordPositions] at hit
      by_cases he : input.name = w.input
      · exact he
      · rw [if_pos he] at hit
        cases hit
    · cases hopen'

/-- The requests can be handled with calls of `Get` for positions of records only, when there are XML inputs: there is, for every request, a sequence of such calls that performs it. -/
theorem C110_xml_requests_can_be_handled (config : ConfigLib) (p : ParsedConfig) (c₀ c : Config) (hload : loadConfig config p = .ok c₀) (hre : Reordered c₀ c)
    (lib : StartLib) (files : Files) (st : Storage) (hst : lib.index = openIndex st) (parsers : GoMap TextParser)
    (hparsers : instantiateMap (ParserDecl.instantiate (lib.onFiles files)) c.parsers = .ok parsers) (hstored : StoredGiveRecords (lib.onFiles files) parsers c) (service : ServiceLib) :
    ∃ handle, HandlesRequests (lib.onFiles files) c service handle ∧ AsksRecords (lib.onFiles files) parsers c handle := by
  have hr : Registered InputDecl.name c.inputs := registered_perm hre.inputs (loadConfig_ok hload).2.2.1
  have hlib : IndexesFetchFree (lib.onFiles files) := openIndex_fetchFree (st := st) hst
  have key := respond_steps hlib c (indexes_give hst hr hparsers hstored) service
  exact ⟨fun q => (key q).choose, fun q => (key q).choose_spec.2, fun q => (key q).choose_spec.1⟩

/-- The invariant of all the requests, with what their calls of `Get` return. -/
theorem handling_invariant {config : ConfigLib} {p : ParsedConfig} {c₀ c : Config} (hload : loadConfig config p = .ok c₀) (hre : Reordered c₀ c)
    {lib : StartLib} {files : Files} {running : GoMap (String × List Route)} (hstart : start (lib.onFiles files) c = .ok running)
    {parsers : GoMap TextParser} (hparsers : instantiateMap (ParserDecl.instantiate (lib.onFiles files)) c.parsers = .ok parsers)
    (hc : ShareableXml (lib.onFiles files) files parsers p c)
    {service : ServiceLib} {handle : Incoming → Asking (Option Response)} (hhandle : HandlesRequests (lib.onFiles files) c service handle)
    (hasks : AsksRecords (lib.onFiles files) parsers c handle)
    {s₀ s : Handling (getOf (lib.onFiles files) files parsers c) Incoming (Option Response)} (hfresh : Spec.Handling.Fresh s₀) (hrun : Handling.Run handle s₀ s) :
    ∃ fetch Idle Mid, (∀ name, (getOf (lib.onFiles files) files parsers c name).Computes (fetch name) (AskedRecord (lib.onFiles files) parsers c name) (Idle name) (Mid name)) ∧
      HandlingInv handle fetch (AskedRecord (lib.onFiles files) parsers c) Idle Mid s ∧ ∀ q, (handle q).run fetch = respond service (.ok running) q := by
  have hr : Registered InputDecl.name c.inputs := registered_perm hre.inputs (loadConfig_ok hload).2.2.1
  have hget := getOf_computes hr hc hstart hparsers
  refine ⟨fetchOf (lib.onFiles files) parsers c, fun name => (hget name).choose, fun name => (hget name).choose_spec.choose, fun name => (hget name).choose_spec.choose_spec, ?_, ?_⟩
  · refine HandlingInv.run (fun name => (hget name).choose_spec.choose_spec) ?_ hrun
    obtain ⟨locked, shared, handlers⟩ := s₀
    obtain ⟨h1, h2, h3⟩ := hfresh
    simp only at h1 h2 h3
    obtain rfl : locked = fun _ => false := funext h1
    subst h3
    exact HandlingInv.start handle _ hasks shared (fun name => (hget name).choose_spec.choose_spec.opened (h2 name))
  · intro q
    rw [hhandle q]
    simp only [start_fetchOf hr hstart hparsers]

/-- **C110** for programs with XML inputs too: requests that are handled at the same time do not disturb each other, although the calls of `Get` of an XML input share a parser whose state each of them
leaves to the next one. Every request that has been handled got the response that the program gives when it handles this request only.
Missing for the full C110: XML documents and record expressions for which fetching fails (C99_false, C99_path_false), the steps inside of `Get` of an XML input (it is one step, with the lock), and string
parsers with a character set, which share a decoder (C35). -/
theorem C110_xml_partial (config : ConfigLib) (p : ParsedConfig) (c₀ c : Config) (hload : loadConfig config p = .ok c₀) (hre : Reordered c₀ c)
    (lib : StartLib) (files : Files) (running : GoMap (String × List Route)) (hstart : start (lib.onFiles files) c = .ok running)
    (parsers : GoMap TextParser) (hparsers : instantiateMap (ParserDecl.instantiate (lib.onFiles files)) c.parsers = .ok parsers) (hc : ShareableXml (lib.onFiles files) files parsers p c)
    (service : ServiceLib) (handle : Incoming → Asking (Option Response)) (hhandle : HandlesRequests (lib.onFiles files) c service handle) (hasks : AsksRecords (lib.onFiles files) parsers c handle)
    (s₀ s : Handling (getOf (lib.onFiles files) files parsers c) Incoming (Option Response)) (hfresh : Spec.Handling.Fresh s₀) (hrun : Handling.Run handle s₀ s)
    (i : Nat) (q : Incoming) (response : Option Response) (hdone : s.handlers[i]? = some (q, .outside (.done response))) : response = respond service (.ok running) q := by
  obtain ⟨fetch, Idle, Mid, _, hi, hq⟩ := handling_invariant hload hre hstart hparsers hc hhandle hasks hfresh hrun
  exact (hi.good i q _ hdone).1.trans (hq q)

/-- **C110** for programs with XML inputs too: whatever has happened, there is a way to go on that brings all the requests to their ends.
Missing for the full C110: as in `C110_xml_partial`. -/
theorem C110_xml_no_deadlock_partial (config : ConfigLib) (p : ParsedConfig) (c₀ c : Config) (hload : loadConfig config p = .ok c₀) (hre : Reordered c₀ c)
    (lib : StartLib) (files : Files) (running : GoMap (String × List Route)) (hstart : start (lib.onFiles files) c = .ok running)
    (parsers : GoMap TextParser) (hparsers : instantiateMap (ParserDecl.instantiate (lib.onFiles files)) c.parsers = .ok parsers) (hc : ShareableXml (lib.onFiles files) files parsers p c)
    (service : ServiceLib) (handle : Incoming → Asking (Option Response)) (hhandle : HandlesRequests (lib.onFiles files) c service handle) (hasks : AsksRecords (lib.onFiles files) parsers c handle)
    (s₀ s : Handling (getOf (lib.onFiles files) files parsers c) Incoming (Option Response)) (hfresh : Spec.Handling.Fresh s₀) (hrun : Handling.Run handle s₀ s) :
    ∃ t, Handling.Run handle s t ∧ t.handlers.map (·.1) = s.handlers.map (·.1) ∧
      ∀ (i : Nat) (q : Incoming) (h : Handler (getOf (lib.onFiles files) files parsers c) (Option Response)), t.handlers[i]? = some (q, h) → h = Handler.outside (.done (respond service (.ok running) q)) := by
  obtain ⟨fetch, Idle, Mid, hget, hi, hq⟩ := handling_invariant hload hre hstart hparsers hc hhandle hasks hfresh hrun
  obtain ⟨t, h1, h2, h3⟩ := hi.all_done hget
  refine ⟨t, h1, h2, fun i q h hh => ?_⟩
  obtain ⟨a, rfl⟩ := h3 i q h hh
  have := ((hi.run hget h1).good i q _ hh).1
  rw [← hq q]
  congr 2

/-- Without XML inputs, the hypotheses about them are met. -/
theorem Spec.Shareable.xml {config : ConfigLib} {p : ParsedConfig} {c₀ c : Config} (hload : loadConfig config p = .ok c₀) (hre : Reordered c₀ c) (hc : Shareable p) (lib : StartLib) (files : Files)
    (parsers : GoMap TextParser) : ShareableXml lib files parsers p c ∧ ∀ handle, AsksRecords lib parsers c handle := by
  have hno : ∀ k d, (k, InputDecl.xml d) ∉ c.inputs := fun k d hd => loaded_files hload hc.files k d (hre.inputs.mem_iff.2 hd)
  exact ⟨⟨fun k d hd => absurd hd (hno k d), fun k d hd => absurd hd (hno k d), hc.charsets⟩, fun handle q => asksOnly_all (fun name position h => by
    obtain ⟨k, d, hd, _⟩ := h
    exact absurd hd (hno k d)) _⟩

/-- **C110** Requests that are handled at the same time do not disturb each other. The program runs with a configuration in which the inputs are CSV and JSON files without character sets. Any requests arrive
at any times, and the steps of their handlers (waiting for the lock of an input, seeking, resetting the buffer, reading bytes, unlocking) are made in any order; the readers are in any state at first.
Then every request that has been handled got the response that the program gives when it handles this request only.
Missing for the full C110: XML inputs, whose parser keeps a state from one `Get` to the next (`C110_xml_partial`), and string parsers with a character set, which share a decoder (C35). -/
theorem C110_concurrent_partial (config : ConfigLib) (p : ParsedConfig) (c₀ c : Config) (hload : loadConfig config p = .ok c₀) (hre : Reordered c₀ c) (hc : Shareable p)
    (lib : StartLib) (files : Files) (running : GoMap (String × List Route)) (hstart : start (lib.onFiles files) c = .ok running)
    (parsers : GoMap TextParser) (hparsers : instantiateMap (ParserDecl.instantiate (lib.onFiles files)) c.parsers = .ok parsers)
    (service : ServiceLib) (handle : Incoming → Asking (Option Response)) (hhandle : HandlesRequests (lib.onFiles files) c service handle)
    (s₀ s : Handling (getOf (lib.onFiles files) files parsers c) Incoming (Option Response)) (hfresh : Spec.Handling.Fresh s₀) (hrun : Handling.Run handle s₀ s)
    (i : Nat) (q : Incoming) (response : Option Response) (hdone : s.handlers[i]? = some (q, .outside (.done response))) : response = respond service (.ok running) q := by
  obtain ⟨hx, hasks⟩ := hc.xml hload hre (lib.onFiles files) files parsers
  exact C110_xml_partial config p c₀ c hload hre lib files running hstart parsers hparsers hx service handle hhandle (hasks handle) s₀ s hfresh hrun i q response hdone

/-- **C110** The requests do not block each other: whatever has happened, there is a way to go on that brings all the requests to their ends.
Missing for the full C110: as in `C110_concurrent_partial`. -/
theorem C110_no_deadlock_partial (config : ConfigLib) (p : ParsedConfig) (c₀ c : Config) (hload : loadConfig config p = .ok c₀) (hre : Reordered c₀ c) (hc : Shareable p)
    (lib : StartLib) (files : Files) (running : GoMap (String × List Route)) (hstart : start (lib.onFiles files) c = .ok running)
    (parsers : GoMap TextParser) (hparsers : instantiateMap (ParserDecl.instantiate (lib.onFiles files)) c.parsers = .ok parsers)
    (service : ServiceLib) (handle : Incoming → Asking (Option Response)) (hhandle : HandlesRequests (lib.onFiles files) c service handle)
    (s₀ s : Handling (getOf (lib.onFiles files) files parsers c) Incoming (Option Response)) (hfresh : Spec.Handling.Fresh s₀) (hrun : Handling.Run handle s₀ s) :
    ∃ t, Handling.Run handle s t ∧ t.handlers.map (·.1) = s.handlers.map (·.1) ∧
      ∀ (i : Nat) (q : Incoming) (h : Handler (getOf (lib.onFiles files) files parsers c) (Option Response)), t.handlers[i]? = some (q, h) → h = Handler.outside (.done (respond service (.ok running) q)) := by
  obtain ⟨hx, hasks⟩ := hc.xml hload hre (lib.onFiles files) files parsers
  exact C110_xml_no_deadlock_partial config p c₀ c hload hre lib files running hstart parsers hparsers hx service handle hhandle (hasks handle) s₀ s hfresh hrun

/-! The hypotheses are met: a CSV file with several indexes and two services (`StoredFilesExample`), and any requests that arrive together. -/
namespace ConcurrentExample
open StoredFilesExample

theorem shareable : Shareable parsed := by
  refine ⟨fun d h => ?_, fun x hx => ?_⟩
  · cases List.mem_singleton.1 h
  · cases hx

theorem reordered (c : Config) : Reordered c c := ⟨.refl _, .refl _, .refl _, .refl _, .refl _⟩

theorem parsers_start {lib : StartLib} {c : Config} {running : GoMap (String × List Route)} (h : start lib c = .ok running) :
    ∃ parsers, instantiateMap (ParserDecl.instantiate lib) c.parsers = .ok parsers := by
  simp only [start, bind_ok] at h
  obtain ⟨parsers, h, _⟩ := h
  exact ⟨parsers, h⟩

/-- Any requests arrive together; the readers of the files are at any places, with any bytes in their buffers. Then the program can answer all of them, and it gives each one the response it would give it
alone. -/
example (service : ServiceLib) (requests : List Incoming) :
    ∃ c running parsers handle, loadConfig ConfigExample.lib parsed = .ok c ∧ start ((startLib FilesExample.noParsers).onFiles FilesExample.machine) c = .ok running ∧
      instantiateMap (ParserDecl.instantiate ((startLib FilesExample.noParsers).onFiles FilesExample.machine)) c.parsers = .ok parsers ∧
      HandlesRequests ((startLib FilesExample.noParsers).onFiles FilesExample.machine) c service handle ∧
      ∀ s₀ : Handling (getOf ((startLib FilesExample.noParsers).onFiles FilesExample.machine) FilesExample.machine parsers c) Incoming (Option Response), Spec.Handling.Fresh s₀ →
        ∃ s t, s.handlers.map (·.1) = requests ∧ Handling.Run handle s₀ s ∧ Handling.Run handle s t ∧ t.handlers.map (·.1) = requests ∧
          ∀ (i : Nat) (q : Incoming) (h), t.handlers[i]? = some (q, h) → h = Handler.outside (.done (respond service (.ok running) q)) := by
  obtain ⟨c, hload, running, hstart⟩ := starts
  obtain ⟨parsers, hparsers⟩ := parsers_start hstart
  obtain ⟨handle, hhandle⟩ := C110_requests_can_be_handled (startLib FilesExample.noParsers) FilesExample.machine storage rfl c service
  refine ⟨c, running, parsers, handle, hload, hstart, hparsers, hhandle, fun s₀ hfresh => ?_⟩
  have harrive : ∀ (l : List Incoming) (s : Handling (getOf ((startLib FilesExample.noParsers).onFiles FilesExample.machine) FilesExample.machine parsers c) Incoming (Option Response)),
      ∃ t, t.handlers.map (·.1) = s.handlers.map (·.1) ++ l ∧ Handling.Run handle s t := by
    intro l
    induction l with
    | nil => exact fun s => ⟨s, (List.append_nil _).symm, .refl⟩
    | cons q l ih =>
      intro s
      obtain ⟨t, h1, h2⟩ := ih { s with handlers := s.handlers ++ [(q, .outside (handle q))] }
      refine ⟨t, ?_, Handling.Run.trans (.step .refl (.arrive q)) h2⟩
      rw [h1]
      simp
  obtain ⟨s, h1, h2⟩ := harrive requests s₀
  rw [hfresh.2.2] at h1
  obtain ⟨t, h3, h4, h5⟩ := C110_no_deadlock_partial _ _ _ _ hload (reordered c) shareable _ _ running hstart parsers hparsers service handle hhandle s₀ s hfresh h2
  exact ⟨s, t, h1, h2, h3, h4.trans h1, h5⟩

/-- There are such states of the readers. -/
def CanOpen (g : GetSteps) : Prop := ∃ shared, g.Opened shared
theorem can_open_csv (c : CsvInput) (content : Bytes) : CanOpen (csvGet c content) := ⟨(⟨content, 0, []⟩ : BufReader), rfl⟩
theorem can_open_json (decode : JsonDecoder) (content : Bytes) : CanOpen (jsonGet decode content) := ⟨(0 : Nat), trivial⟩
theorem can_open_none : CanOpen noGet := ⟨(), trivial⟩
theorem can_open (lib : StartLib) (files : Files) (parsers : GoMap TextParser) (d : InputDecl) (h : ∀ x, d ≠ .xml x) : CanOpen (d.getSteps lib files parsers) := by
  cases d with
  | xml c => exact absurd rfl (h c)
  | csv c =>
    simp only [InputDecl.getSteps]
    split
    · exact can_open_csv _ _
    · exact can_open_none
  | json c =>
    simp only [InputDecl.getSteps]
    split
    · exact can_open_json _ _
    · exact can_open_none
theorem fresh {c : Config} (hload : loadConfig ConfigExample.lib parsed = .ok c) (lib : StartLib) (files : Files) (parsers : GoMap TextParser) :
    ∃ s : Handling (getOf lib files parsers c) Incoming (Option Response), Spec.Handling.Fresh s := by
  have key : ∀ name, CanOpen (getOf lib files parsers c name) := by
    intro name
    cases hf : c.inputs.find? (fun e => e.2.name = name) with
    | none => rw [show getOf lib files parsers c name = noGet by rw [getOf, hf]]; exact can_open_none
    | some e =>
      rw [show getOf lib files parsers c name = e.2.getSteps lib files parsers by rw [getOf, hf]]
      exact can_open _ _ _ _ (fun x hx => loaded_files hload shareable.files e.1 x (by rw [← hx]; exact List.mem_of_find?_eq_some hf))
  exact ⟨⟨fun _ => false, fun name => (key name).choose, []⟩, fun _ => rfl, fun name => (key name).choose_spec, rfl⟩

/-- A program with an XML file, a map index and a service (`XmlFilesExample`). -/
theorem xml_starts : ∃ c, loadConfig ConfigExample.lib XmlFilesExample.parsed = .ok c ∧ (∀ k x, (k, x) ∈ c.indexes → FindsEqual x) ∧
    ∃ running, start ((startLib FilesExample.noParsers).onFiles (XmlFilesExample.machine XmlExample.flat)) c = .ok running := by
  have h : (match loadConfig ConfigExample.lib XmlFilesExample.parsed with
      | .ok c => c.indexes.all (fun e => match e.2 with | .map _ => true | .noop _ => true | _ => false) &&
        (match start ((startLib FilesExample.noParsers).onFiles (XmlFilesExample.machine XmlExample.flat)) c with | .ok _ => true | .error _ => false)
      | .error _ => false) = true := by decide +kernel
  cases hc : loadConfig ConfigExample.lib XmlFilesExample.parsed with
  | error e => rw [hc] at h; cases h
  | ok c =>
    rw [hc] at h
    simp only [Bool.and_eq_true, List.all_eq_true] at h
    refine ⟨c, rfl, fun k x hx => ?_, ?_⟩
    · have := h.1 _ hx
      cases x with
      | map m => exact .inl ⟨m, rfl⟩
      | noop n => exact .inr ⟨n, rfl⟩
      | wildcard d => cases this
      | sqlite d => cases this
      | fts5 d => cases this
    · cases hs : start ((startLib FilesExample.noParsers).onFiles (XmlFilesExample.machine XmlExample.flat)) c with
      | error e => rw [hs] at h; cases h.2
      | ok running => exact ⟨running, rfl⟩

theorem xml_shareable {c : Config} (hload : loadConfig ConfigExample.lib XmlFilesExample.parsed = .ok c) (parsers : GoMap TextParser) :
    ShareableXml ((startLib FilesExample.noParsers).onFiles (XmlFilesExample.machine XmlExample.flat)) (XmlFilesExample.machine XmlExample.flat) parsers XmlFilesExample.parsed c := by
  have hone : ∀ k d, (k, InputDecl.xml d) ∈ c.inputs → InputDecl.xml d = completedInput (.xml XmlFilesExample.decl) := by
    intro k d hd
    obtain ⟨x, hx, _, he⟩ := loaded_inputs hload hd
    rw [he, List.mem_singleton.1 hx]
  refine ⟨fun k d hd => ?_, fun k d hd position before hb => ?_, fun x hx => by cases hx⟩
  · have := hone k d hd
    cases this
    exact ⟨_, _, XmlExample.isItem, XmlExample.steady, rfl, XmlExample.looks, XmlExample.flat_document, XmlExample.flat_straight⟩
  · have := hone k d hd
    cases this
    have hb : before ∈ [(7 : Int), 0] := hb
    simp only [List.mem_cons, List.not_mem_nil, or_false] at hb
    rcases hb with rfl | rfl
    · exact ⟨k, _, _, _, _, hd, rfl, rfl, rfl, .tail _ (.head _), rfl⟩
    · exact ⟨k, _, _, _, _, hd, rfl, rfl, rfl, .head _, rfl⟩

/-- Any requests arrive together at the program with the XML file; then the program can answer all of them, and it gives each one the response it would give it alone. -/
example (service : ServiceLib) (requests : List Incoming) :
    ∃ c running parsers handle, loadConfig ConfigExample.lib XmlFilesExample.parsed = .ok c ∧
      start ((startLib FilesExample.noParsers).onFiles (XmlFilesExample.machine XmlExample.flat)) c = .ok running ∧
      HandlesRequests ((startLib FilesExample.noParsers).onFiles (XmlFilesExample.machine XmlExample.flat)) c service handle ∧
      ∀ s₀ : Handling (getOf ((startLib FilesExample.noParsers).onFiles (XmlFilesExample.machine XmlExample.flat)) (XmlFilesExample.machine XmlExample.flat) parsers c) Incoming (Option Response),
        Spec.Handling.Fresh s₀ → ∃ t, Handling.Run handle s₀ t ∧ t.handlers.map (·.1) = requests ∧
          ∀ (i : Nat) (q : Incoming) (h), t.handlers[i]? = some (q, h) → h = Handler.outside (.done (respond service (.ok running) q)) := by
  obtain ⟨c, hload, hindexes, running, hstart⟩ := xml_starts
  obtain ⟨parsers, hparsers⟩ := parsers_start hstart
  obtain ⟨handle, hhandle, hasks⟩ := C110_xml_requests_can_be_handled _ _ _ _ hload (reordered c) (startLib FilesExample.noParsers) (XmlFilesExample.machine XmlExample.flat) storage rfl parsers hparsers
    (fun k x hx hn => absurd (hindexes k x hx) hn) service
  refine ⟨c, running, parsers, handle, hload, hstart, hhandle, fun s₀ hfresh => ?_⟩
  have harrive : ∀ (l : List Incoming) (s : Handling (getOf ((startLib FilesExample.noParsers).onFiles (XmlFilesExample.machine XmlExample.flat)) (XmlFilesExample.machine XmlExample.flat) parsers c)
      Incoming (Option Response)), ∃ t, t.handlers.map (·.1) = s.handlers.map (·.1) ++ l ∧ Handling.Run handle s t := by
    intro l
    induction l with
    | nil => exact fun s => ⟨s, (List.append_nil _).symm, .refl⟩
    | cons q l ih =>
      intro s
      obtain ⟨t, h1, h2⟩ := ih { s with handlers := s.handlers ++ [(q, .outside (handle q))] }
      refine ⟨t, ?_, Handling.Run.trans (.step .refl (.arrive q)) h2⟩
      rw [h1]
      simp
  obtain ⟨s, h1, h2⟩ := harrive requests s₀
  rw [hfresh.2.2] at h1
  obtain ⟨t, h3, h4, h5⟩ := C110_xml_no_deadlock_partial _ _ _ _ hload (reordered c) _ _ running hstart parsers hparsers (xml_shareable hload parsers) service handle hhandle hasks s₀ s hfresh h2
  exact ⟨t, h2.trans h3, h4.trans h1, h5⟩

end ConcurrentExample

end Rodb
