import Verif.Proofs.JsonRead
import Verif.Proofs.Unindexed
import Verif.Props.RunningProps
import Verif.Model.Inputs
/-
  Lemmas for C130: nothing that the program makes has two members with the same name.
-/
namespace Rodb
open Spec

theorem distinct_nil : DistinctKeys (.obj []) := .obj .nil (fun _ _ h => nomatch h)

theorem distinct_set {m : GoMap Value} {k : String} {v : Value} (hm : DistinctKeys (.obj m)) (hv : DistinctKeys v) : DistinctKeys (.obj (mapSet m k v)) := by
  cases hm with
  | obj hn hall =>
    refine .obj (mapSet_keys k v hn) (fun n x hx => ?_)
    rcases mapSet_mem hx with h | ⟨_, rfl⟩
    · exact hall n x h
    · exact hv

theorem distinct_foldl : ∀ {m acc : GoMap Value}, (∀ e ∈ m, DistinctKeys e.2) → DistinctKeys (.obj acc) → DistinctKeys (.obj (m.foldl (fun m e => mapSet m e.1 e.2) acc))
  | [], _, _, ha => ha
  | e :: m, _, h, ha => distinct_foldl (m := m) (fun x hx => h x (.tail _ hx)) (distinct_set ha (h e (.head _)))

/-! ### JSON texts -/

theorem readAll_distinct (parseFloat : Bytes → Res GoFloat) : ∀ fuel : Nat,
    (∀ depth s v rest, readValue parseFloat fuel depth s = some (v, rest) → DistinctKeys v) ∧
    (∀ depth s l rest, readElements parseFloat fuel depth s = some (l, rest) → ∀ v ∈ l, DistinctKeys v) ∧
    (∀ depth s l rest, readMembers parseFloat fuel depth s = some (l, rest) → ∀ e ∈ l, DistinctKeys e.2)
  | 0 => ⟨fun _ _ _ _ h => by simp [readValue] at h, fun _ _ _ _ h => by simp [readElements] at h, fun _ _ _ _ h => by simp [readMembers] at h⟩
  | fuel + 1 => by
    obtain ⟨ihv, ihe, ihm⟩ := readAll_distinct parseFloat fuel
    refine ⟨fun depth s v rest h => ?_, fun depth s l rest h => ?_, fun depth s l rest h => ?_⟩
    · unfold readValue at h
      split at h
      · cases h
      · split at h
        · split at h
          · cases h
          · split at h
            · cases h; exact distinct_nil
            · simp only [Option.map_eq_some_iff] at h
              obtain ⟨⟨l, r⟩, hl, he⟩ := h
              cases he
              exact distinct_foldl (ihm _ _ _ _ hl) distinct_nil
        · split at h
          · split at h
            · cases h
            · split at h
              · cases h; exact .arr (fun _ h => nomatch h)
              · simp only [Option.map_eq_some_iff] at h
                obtain ⟨⟨l, r⟩, hl, he⟩ := h
                cases he
                exact .arr (ihe _ _ _ _ hl)
          · split at h
            · simp only [Option.map_eq_some_iff] at h
              obtain ⟨_, _, he⟩ := h
              cases he
              exact .str
            · split at h
              · simp only [Option.map_eq_some_iff] at h
                obtain ⟨_, _, he⟩ := h
                cases he
                exact .null
              · split at h
                · simp only [Option.map_eq_some_iff] at h
                  obtain ⟨_, _, he⟩ := h
                  cases he
                  exact .bool
                · split at h
                  · simp only [Option.map_eq_some_iff] at h
                    obtain ⟨_, _, he⟩ := h
                    cases he
                    exact .bool
                  · split at h
                    · cases h
                    · split at h
                      · cases h; exact .float
                      · cases h
    · unfold readElements at h
      split at h
      · cases h
      · rename_i v rest' hv
        have hd := ihv _ _ _ _ hv
        split at h
        · cases h
          intro x hx
          rcases List.mem_cons.1 hx with rfl | hx
          · exact hd
          · cases hx
        · simp only [Option.map_eq_some_iff] at h
          obtain ⟨⟨l', r⟩, hl, he⟩ := h
          cases he
          intro x hx
          rcases List.mem_cons.1 hx with rfl | hx
          · exact hd
          · exact ihe _ _ _ _ hl x hx
        · cases h
    · unfold readMembers at h
      split at h
      · split at h
        · cases h
        · split at h
          · split at h
            · cases h
            · rename_i v rest' hv
              have hd := ihv _ _ _ _ hv
              split at h
              · cases h
                intro x hx
                rcases List.mem_cons.1 hx with rfl | hx
                · exact hd
                · cases hx
              · simp only [Option.map_eq_some_iff] at h
                obtain ⟨⟨l', r⟩, hl, he⟩ := h
                cases he
                intro x hx
                rcases List.mem_cons.1 hx with rfl | hx
                · exact hd
                · exact ihm _ _ _ _ hl x hx
              · cases h
          · cases h
      · cases h

theorem jsonDecoder_distinct {parseFloat : Bytes → Res GoFloat} {s : Bytes} {m : GoMap Value} {n : Nat} (h : jsonDecoder parseFloat s = (.doc m, n)) : DistinctKeys (.obj m) := by
  unfold jsonDecoder at h
  split at h
  · rename_i hr
    cases h
    exact (readAll_distinct parseFloat _).1 _ _ _ _ hr
  · cases h; exact distinct_nil
  · cases h

theorem unmarshalJson_distinct {parseFloat : Bytes → Res GoFloat} {s : Bytes} {v : Value} (h : unmarshalJson parseFloat s = .ok v) : DistinctKeys v := by
  unfold unmarshalJson at h
  split at h
  · rename_i hr
    split at h
    · cases h
      exact (readAll_distinct parseFloat _).1 _ _ _ _ hr
    · cases h
  · cases h

/-! ### Parsers and records -/

theorem parsePieces_distinct {f : Bytes → Res Value} (hf : ∀ s v, f s = .ok v → DistinctKeys v) : ∀ {l : List Bytes} {vs : List Value}, parsePieces f l = .ok vs → ∀ v ∈ vs, DistinctKeys v
  | [], vs, h => by cases h; exact fun _ h => nomatch h
  | p :: rest, vs, h => by
    simp only [parsePieces, bind_ok, ok_inj] at h
    obtain ⟨v, hv, vs', hvs, rfl⟩ := h
    intro x hx
    rcases List.mem_cons.1 hx with rfl | hx
    · exact hf _ _ hv
    · exact parsePieces_distinct hf hvs x hx

theorem parse_distinct {lib : ParserLib} (hlib : ∀ s v, lib.unmarshal s = .ok v → DistinctKeys v) (parsers : GoMap ParserConfig) :
    ∀ (fuel : Nat) (c : ParserConfig) (s : Bytes) (v : Value), parse lib parsers fuel c s = .ok v → DistinctKeys v := by
  intro fuel
  induction fuel with
  | zero =>
    intro c s v h
    cases c <;> simp only [parse] at h
    · unfold stringParse at h; split at h; · cases h; exact .str
      split at h <;> cases h; exact .str
    · unfold integerParse at h; split at h <;> cases h; exact .int
    · unfold floatParse at h; simp only at h; split at h <;> cases h; exact .float
    · unfold booleanParse at h; split at h; · cases h; exact .bool
      split at h <;> cases h; exact .bool
    · exact hlib _ _ h
    · cases h
  | succ fuel ih =>
    intro c s v h
    cases c <;> simp only [parse] at h
    · unfold stringParse at h; split at h; · cases h; exact .str
      split at h <;> cases h; exact .str
    · unfold integerParse at h; split at h <;> cases h; exact .int
    · unfold floatParse at h; simp only at h; split at h <;> cases h; exact .float
    · unfold booleanParse at h; split at h; · cases h; exact .bool
      split at h <;> cases h; exact .bool
    · exact hlib _ _ h
    · split at h
      · cases h
      · split at h
        · cases h
        · rename_i hp
          cases h
          exact .arr (parsePieces_distinct (fun s v hv => ih _ s v hv) hp)

/-- What all the parsing functions give is unambiguous. -/
def DistinctParsers (functions : GoMap (Bytes → Res Value)) : Prop := ∀ name f, mapGet functions name = some f → ∀ s v, f s = .ok v → DistinctKeys v

theorem parseFunctions_distinct {lib : StartLib} (hlib : ∀ s v, lib.parserLib.unmarshal s = .ok v → DistinctKeys v) (texts : GoMap TextParser) : DistinctParsers (parseFunctions lib texts) := by
  intro name f hf s v hv
  obtain ⟨t, _, he⟩ := List.mem_map.1 (mapGet_mem hf)
  cases he
  exact parse_distinct hlib _ _ _ _ _ hv

theorem csvAll_distinct {columns : List CsvColumn} (hc : ∀ c ∈ columns, ∀ s v, c.parse s = .ok v → DistinctKeys v) {data : List Bytes} :
    ∀ {l : List CsvColumn} {acc out : GoMap Value}, csvAll columns data l acc = .ok out → DistinctKeys (.obj acc) → DistinctKeys (.obj out)
  | [], _, _, h, ha => by cases h; exact ha
  | c :: rest, acc, out, h, ha => by
    simp only [csvAll] at h
    split at h
    · cases h
    · rename_i v hv
      refine csvAll_distinct hc h (distinct_set ha ?_)
      unfold csvGetColumn at hv
      split at hv
      · cases hv
      · split at hv
        · cases hv; exact .null
        · split at hv
          · cases hv
          · rename_i col hcol
            exact hc col (List.mem_of_getElem? hcol) _ _ hv

theorem xmlPrimitive_distinct {env : XmlEnv} (hf : DistinctParsers env.functions) {parser : String} {r : XPathResult} {v : Value} (h : env.primitiveValue parser r = .ok v) : DistinctKeys v := by
  cases r <;> simp only [XmlEnv.primitiveValue] at h
  · unfold XmlEnv.stringValue at h
    split at h
    · cases h
    · rename_i f hp; exact hf _ _ hp _ _ h
  · unfold XmlEnv.numericValue at h; split at h <;> cases h; exact .float; exact .int
  · unfold XmlEnv.boolValue at h; split at h <;> cases h; exact .bool
  · unfold XmlEnv.nodesValue at h; split at h <;> cases h; exact .str
  · cases h

theorem xmlArray_distinct {N : Type} {f : N → Res Value} (hf : ∀ n v, f n = .ok v → DistinctKeys v) : ∀ {l : List N} {vs : List Value}, xmlArray f l = .ok vs → ∀ v ∈ vs, DistinctKeys v
  | [], vs, h => by cases h; exact fun _ h => nomatch h
  | n :: rest, vs, h => by
    simp only [xmlArray] at h
    split at h
    · cases h
    · rename_i v hv
      split at h
      · cases h
      · rename_i vs' hvs
        cases h
        intro x hx
        rcases List.mem_cons.1 hx with rfl | hx
        · exact hf _ _ hv
        · exact xmlArray_distinct hf hvs x hx

mutual
theorem xmlAllValues_distinct {N : Type} {env : XmlEnv} (hf : DistinctParsers env.functions) : ∀ (p : XmlProp N) (node : N) (v : Value), xmlAllValues env p node = .ok v → DistinctKeys v
  | .array _ select items, node, v, h => by
    simp only [xmlAllValues] at h
    split at h
    · cases h
    · rename_i vs hvs
      cases h
      exact .arr (xmlArray_distinct (fun n v hv => xmlAllValues_distinct hf items n v hv) hvs)
  | .object _ select properties, node, v, h => by
    simp only [xmlAllValues] at h
    split at h
    · cases h; exact .null
    · split at h
      · cases h
      · rename_i m hm
        cases h
        exact xmlObject_distinct hf properties _ _ _ hm distinct_nil
    · cases h
  | .primitive _ eval parser, node, v, h => by
    simp only [xmlAllValues] at h
    exact xmlPrimitive_distinct hf h
theorem xmlObject_distinct {N : Type} {env : XmlEnv} (hf : DistinctParsers env.functions) : ∀ (l : List (XmlProp N)) (node : N) (acc out : GoMap Value),
    xmlObject env l node acc = .ok out → DistinctKeys (.obj acc) → DistinctKeys (.obj out)
  | [], _, _, _, h, ha => by simp only [xmlObject] at h; cases h; exact ha
  | p :: rest, node, acc, out, h, ha => by
    simp only [xmlObject] at h
    split at h
    · cases h
    · rename_i v hv
      exact xmlObject_distinct hf rest node _ _ h (distinct_set ha (xmlAllValues_distinct hf p node v hv))
end

/-- No record of the input has two members with the same name. -/
def UnambiguousInput (input : Input) : Prop := ∀ position r d, input.fetch position = .ok r → r.all = .ok d → DistinctKeys (.obj d)

theorem csvFetch_record {c : CsvInput} {sched : List Nat} {reader : BufReader} {position : Int} {r : Rec} (h : (csvFetch c sched reader position).1 = .ok r) :
    ∃ cells, r = csvRecord c.columns cells position := by
  unfold csvFetch at h
  cases hs : setBufferedReaderOffset reader position with
  | error e => rw [hs] at h; cases h
  | ok reader' =>
    rw [hs] at h
    simp only at h
    cases hr : c.reader.read sched reader' with
    | mk a reader'' =>
      rw [hr] at h
      cases a with
      | eof => cases h
      | bad => cases h
      | row cells => cases h; exact ⟨cells, rfl⟩

theorem openInput_unambiguous {files : Files} {parseFloat : Bytes → Res GoFloat} (hjson : files.decodeJson = jsonDecoder parseFloat) {c : InputDecl} {types : String → Option ParserType}
    {functions : GoMap (Bytes → Res Value)} (hf : DistinctParsers functions) {input : Input} (h : openInput files c types functions = .ok input) : UnambiguousInput input := by
  cases c with
  | csv c =>
    simp only [openInput, openCsvInput] at h
    split at h
    · cases h
    · simp only [bind_ok, ok_inj] at h
      obtain ⟨comma, _, rfl⟩ := h
      intro position r d hr hd
      obtain ⟨cells, rfl⟩ := csvFetch_record hr
      refine csvAll_distinct ?_ hd distinct_nil
      intro col hcol s v hv
      obtain ⟨x, _, rfl⟩ := List.mem_map.1 hcol
      simp only at hv
      cases hget : mapGet functions x.parser with
      | none => rw [hget] at hv; cases hv
      | some f => rw [hget] at hv; exact hf _ _ hget _ _ hv
  | json c =>
    simp only [openInput, openJsonInput] at h
    split at h
    · cases h
    · cases h
      intro position r d hr hd
      simp only [jsonAsInput, hjson] at hr
      unfold jsonFetch at hr
      split at hr
      · cases hr
      · split at hr
        · rename_i hdec
          cases hr
          cases hd
          exact jsonDecoder_distinct hdec
        · cases hr
  | xml c =>
    simp only [openInput, openXmlInput] at h
    split at h
    · cases h
    · cases h
      intro position r d hr hd
      simp only [xmlAsInput] at hr
      unfold xmlFetch at hr
      split at hr
      · cases hr
      · split at hr
        · cases hr
        · cases hr
        · simp only [ok_inj] at hr
          subst hr
          exact xmlObject_distinct hf _ _ _ _ hd distinct_nil

/-! ### Relationships and outputs -/

section
variable {env : OutputEnv} (hin : ∀ name input, mapGet env.inputs name = some input → UnambiguousInput input) (hperm : ∀ less l, (env.sort less l).Perm l)
include hin hperm

omit hin hperm in
theorem loadItems_distinct {nested : Nat → GoMap Value → Res (GoMap Value)} (hn : ∀ i d out, nested i d = .ok out → DistinctKeys (.obj d) → DistinctKeys (.obj out)) {count : Int} :
    ∀ {l : List Rec} {i : Nat} {items : List (GoMap Value)}, (∀ r ∈ l, ∀ d, r.all = .ok d → DistinctKeys (.obj d)) → loadItems nested count i l = .ok items → ∀ item ∈ items, DistinctKeys (.obj item)
  | [], _, _, _, h => by cases h; exact fun _ h => nomatch h
  | r :: rest, i, items, hl, h => by
    simp only [loadItems] at h
    split at h
    · cases h
    · rename_i d hd
      split at h
      · cases h
      · rename_i out hout
        have ho := hn _ _ _ hout (hl r (.head _) d hd)
        split at h
        · cases h
          intro x hx
          rcases List.mem_cons.1 hx with rfl | hx
          · exact ho
          · cases hx
        · split at h
          · cases h
          · rename_i items' hitems
            cases h
            intro x hx
            rcases List.mem_cons.1 hx with rfl | hx
            · exact ho
            · exact loadItems_distinct hn (fun r hr => hl r (.tail _ hr)) hitems x hx

theorem loadRelationship_distinct {nested : List Nat → GoMap Value → List (String × Relationship) → Res (GoMap Value)}
    (hn : ∀ path d rels out, nested path d rels = .ok out → DistinctKeys (.obj d) → DistinctKeys (.obj out)) {path : List Nat} {data : GoMap Value} {rel : Relationship} {v : Value}
    (h : loadRelationship env nested path data rel = .ok v) : DistinctKeys v := by
  obtain ⟨inputName, isArray, limit, sort, ms, rels⟩ := rel
  simp only [loadRelationship] at h
  split at h
  · cases h
  · split at h
    · cases h
    · rename_i input hinput
      split at h
      · cases h
      · split at h
        · cases h
        · rename_i records hrec
          have hall : ∀ r ∈ (if sort.length > 0 then sortRecords env.sort sort records else records), ∀ d, r.all = .ok d → DistinctKeys (.obj d) := by
            intro r hr d hd
            have hr : r ∈ records := by
              split at hr
              · exact (hperm _ _).mem_iff.1 hr
              · exact hr
            obtain ⟨position, hp⟩ := collectRecords_fetched hrec r hr
            exact hin _ _ hinput position r d hp hd
          generalize (if sort.length > 0 then sortRecords env.sort sort records else records) = chosen at h hall
          split at h
          · cases h
          · split at h
            · cases h
            · rename_i items hitems
              have hi := loadItems_distinct (fun i d out => hn _ d rels out) hall hitems
              cases h
              unfold relationshipValue
              split
              · refine .arr (fun v hv => ?_)
                obtain ⟨item, hm, rfl⟩ := List.mem_map.1 hv
                exact hi item hm
              · split
                · exact .null
                · exact hi _ (.head _)

omit hin hperm in
theorem loadLoop_distinct {load : Nat → GoMap Value → Relationship → Res Value} (hl : ∀ i d r v, load i d r = .ok v → DistinctKeys v) :
    ∀ {l : List (String × Relationship)} {i : Nat} {data out : GoMap Value}, loadLoop load i data l = .ok out → DistinctKeys (.obj data) → DistinctKeys (.obj out)
  | [], _, _, _, h, hd => by cases h; exact hd
  | (name, r) :: rest, i, data, out, h, hd => by
    simp only [loadLoop] at h
    split at h
    · cases h
    · rename_i v hv
      exact loadLoop_distinct hl h (distinct_set hd (hl _ _ _ _ hv))

theorem loadRelationships_distinct : ∀ (fuel : Nat) (path : List Nat) (data : GoMap Value) (rels : List (String × Relationship)) (out : GoMap Value),
    loadRelationships env fuel path data rels = .ok out → DistinctKeys (.obj data) → DistinctKeys (.obj out)
  | _, _, _, [], _, h, hd => by simp only [loadRelationships] at h; cases h; exact hd
  | 0, _, _, _ :: _, _, h, _ => by simp [loadRelationships] at h
  | fuel + 1, path, data, _ :: _, out, h, hd => by
    simp only [loadRelationships] at h
    exact loadLoop_distinct (fun i d r v hv => loadRelationship_distinct hin hperm (loadRelationships_distinct fuel) hv) h hd

theorem dataFromPosition_distinct {path : List Nat} {rootInput : String} {rels : List (String × Relationship)} {position : Int} {out : GoMap Value}
    (h : dataFromPosition env path rootInput rels position = .ok out) : DistinctKeys (.obj out) := by
  unfold dataFromPosition at h
  split at h
  · cases h
  · rename_i input hinput
    split at h
    · cases h
    · rename_i r hr
      split at h
      · cases h
      · rename_i d hd
        exact loadRelationships_distinct hin hperm _ _ _ _ _ h (hin _ _ hinput _ _ _ hr hd)

omit hin hperm in
theorem readRows_distinct {getData : Nat → Int → Res (GoMap Value)} (hg : ∀ i p out, getData i p = .ok out → DistinctKeys (.obj out)) :
    ∀ {n i : Nat} {st : List PIter} {rows : List Value}, readRows getData n i st = .ok rows → ∀ v ∈ rows, DistinctKeys v
  | 0, _, _, _, h => by cases h; exact fun _ h => nomatch h
  | n + 1, i, st, rows, h => by
    simp only [readRows] at h
    split at h
    · cases h
    · cases h; exact fun _ h => nomatch h
    · split at h
      · cases h
      · rename_i d hd
        split at h
        · cases h
        · rename_i rows' hrows
          cases h
          intro x hx
          rcases List.mem_cons.1 hx with rfl | hx
          · exact hg _ _ _ hd
          · exact readRows_distinct hg hrows x hx

theorem handleArray_distinct {c : ArrayConfig} {params : GoMap Bytes} {v : Value} (h : handleArray env c params = .data v) : DistinctKeys v := by
  unfold handleArray at h
  split at h
  · cases h
  · split at h
    · cases h
    · split at h
      · cases h
      · split at h
        · cases h
        · split at h
          · cases h
          · split at h
            · cases h
            · split at h
              · cases h
              · rename_i rows hrows
                cases h
                exact .arr (readRows_distinct (fun i p out ho => dataFromPosition_distinct hin hperm ho) hrows)

theorem handleObject_distinct {c : ObjectConfig} {params : GoMap Bytes} {v : Value} (h : handleObject env c params = .data v) : DistinctKeys v := by
  unfold handleObject at h
  split at h
  · cases h
  · split at h
    · cases h
    · split at h
      · cases h
      · split at h
        · cases h
        · cases h
        · split at h
          · cases h
          · rename_i d hd
            cases h
            exact dataFromPosition_distinct hin hperm hd
end

end Rodb
