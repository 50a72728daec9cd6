import Verif.Spec.RelatedObjects
import Verif.Props.JsonFilesProps
import Verif.Props.XmlFilesProps
import Verif.Props.RelatedProps
import Verif.Props.SortProps
/-
  C87: from the bytes of all the files to responses with relationships.
-/
namespace Rodb
open Spec

variable {config : ConfigLib} {lib : StartLib} {files : Files} {p : ParsedConfig} {texts : GoMap TextParser} {env : OutputEnv} {apis : GoMap OutputApi}
  {running : GoMap (String × List Route)}

/-- What is needed of the records of an input: `sat` says what the indexes find among the records, `found` what they find among the objects. -/
structure RecordsHold (config : ConfigLib) (lib : StartLib) (p : ParsedConfig) (functions : GoMap (Bytes → Res Value)) (sat : String → String → Value → Rec → Bool)
    (acceptable : String → String → Value → Prop) (found : String → String → Value → GoMap Value → Bool) (x : InputDecl) (asked : List String) (objects : List (GoMap Value))
    (records : List Rec) : Prop where
  rows : RecordsOf lib p functions x asked records
  finds : IndexesFind config lib p functions x records sat acceptable
  shown : records.map shownOf = objects
  all : ∀ r ∈ records, r.all = .ok (shownOf r)
  get : ∀ r ∈ records, ∀ q ∈ asked, ∀ v, r.get q = .ok v ↔ ValueAt (shownOf r) q v
  finite : ∀ o ∈ objects, ¬ HasNonFinite (.obj o)
  same : ∀ index i q v, IsIndex p index i → Searches i x.name q → (isFullText p index = true ∨ q ∈ asked) → ∀ r ∈ records, sat index q v r = found index q v (shownOf r)

theorem Spec.FileData.equality {parseFloat : Bytes → Res GoFloat} {functions : GoMap (Bytes → Res Value)} {x : InputDecl} {asked : List String} {objects : List (GoMap Value)}
    (hdata : FileData files parseFloat p functions x asked objects) : ∀ i ∈ p.indexes, inputOfIndex i = some x.name → FindsEqual i := by
  cases x with
  | csv d => exact CsvData.equality hdata
  | json d => exact JsonData.equality hdata
  | xml d => exact XmlInputData.equality hdata

theorem Spec.FileData.content {parseFloat : Bytes → Res GoFloat} {functions : GoMap (Bytes → Res Value)} {x : InputDecl} {asked : List String} {objects : List (GoMap Value)}
    (hdata : FileData files parseFloat p functions x asked objects) : FileContent files parseFloat p functions x asked objects := by
  cases x with
  | csv d => exact CsvData.toCsvContent hdata
  | json d => exact JsonData.toJsonContent hdata
  | xml d => exact XmlInputData.toXmlInputContent hdata

theorem Spec.FileContent.records_of {parseFloat : Bytes → Res GoFloat} {x : InputDecl} {asked : List String} {objects : List (GoMap Value)} {functions : GoMap (Bytes → Res Value)}
    {e₀ : InputDecl} (he₀ : WithColumns (lib.onFiles files) (completedInput x) e₀) (hw : WellFormed config p) (hx : x ∈ p.inputs)
    (hdata : FileContent files parseFloat p functions x asked objects) :
    (∃ records, ContentRecords lib files p functions x (inputPath x) asked objects records) ∧ ∀ o ∈ objects, ¬ HasNonFinite (.obj o) := by
  cases x with
  | csv d => exact ⟨Spec.CsvContent.records_of he₀ hw hx hdata, CsvContent.finite hdata⟩
  | json d => exact ⟨Spec.JsonContent.records hdata functions, fun o ho => (JsonContent.data hdata o ho).2.2⟩
  | xml d => exact ⟨Spec.XmlInputContent.records hw hx hdata, XmlInputContent.finite hdata⟩

theorem Spec.FileContent.records {parseFloat : Bytes → Res GoFloat} {x : InputDecl} {asked : List String} {objects : List (GoMap Value)}
    (hrun : Running config (lib.onFiles files) p texts env apis running) (hw : WellFormed config p) (hx : x ∈ p.inputs)
    (hdata : FileContent files parseFloat p env.parsers x asked objects) :
    (∃ records, ContentRecords lib files p env.parsers x (inputPath x) asked objects records) ∧ ∀ o ∈ objects, ¬ HasNonFinite (.obj o) := by
  obtain ⟨e₀, _, he₀, _, _⟩ := hrun.inputs _ hx
  exact hdata.records_of he₀ hw hx

theorem Spec.FileData.records {parseFloat : Bytes → Res GoFloat} {x : InputDecl} {asked : List String} {objects : List (GoMap Value)}
    (hrun : Running config (lib.onFiles files) p texts env apis running) (hw : WellFormed config p) (hx : x ∈ p.inputs)
    (hdata : FileData files parseFloat p env.parsers x asked objects) :
    ∃ records, RecordsHold config (lib.onFiles files) p env.parsers (fun _ q v r => propEquals r q v) (fun _ _ _ => True) equalAt x asked objects records := by
  obtain ⟨⟨records, h⟩, hf⟩ := hdata.content.records hrun hw hx
  refine ⟨records, h.rows, indexesFind_equality hdata.equality, h.shown, h.all, h.get, hf, ?_⟩
  intro index i q v hi hs hq r hr
  have hplain : FindsEqual i := by
    rcases Searches.input hs with h | h
    · exact .inr h
    · rcases hi with ⟨hm, _⟩ | ⟨_, hm, _⟩
      · exact hdata.equality i hm h
      · rw [List.mem_singleton.1 hm] at h; cases h
  exact propEquals_at (h.get r hr q (hq.resolve_left (isFullText_equal hw hi hplain))) v

/-- The records of all the inputs. -/
theorem all_records {sat : String → String → Value → Rec → Bool} {acceptable : String → String → Value → Prop} {found : String → String → Value → GoMap Value → Bool}
    {asked : String → List String} {tables : String → List (GoMap Value)} (hw : WellFormed config p)
    (hdata : ∀ x ∈ p.inputs, ∃ records, RecordsHold config (lib.onFiles files) p env.parsers sat acceptable found x (asked x.name) (tables x.name) records) :
    ∃ records : String → List Rec, (∀ x ∈ p.inputs, RecordsHold config (lib.onFiles files) p env.parsers sat acceptable found x (asked x.name) (tables x.name) (records x.name)) ∧
      ∀ name, name ∉ p.inputs.map InputDecl.name → records name = [] := by
  have hnd := hw.inputNames.1
  revert hnd hdata
  suffices h : ∀ l : List InputDecl, (l.map InputDecl.name).Nodup →
      (∀ x ∈ l, ∃ records, RecordsHold config (lib.onFiles files) p env.parsers sat acceptable found x (asked x.name) (tables x.name) records) →
      ∃ records : String → List Rec, (∀ x ∈ l, RecordsHold config (lib.onFiles files) p env.parsers sat acceptable found x (asked x.name) (tables x.name) (records x.name)) ∧
        ∀ name, name ∉ l.map InputDecl.name → records name = [] from fun hdata hnd => h p.inputs hnd hdata
  intro l
  induction l with
  | nil => exact fun _ _ => ⟨fun _ => [], by simp, fun _ _ => rfl⟩
  | cons x l ih =>
    intro hnd hdata
    rw [List.map_cons, List.nodup_cons] at hnd
    obtain ⟨f, h1, h2⟩ := ih hnd.2 (fun y hy => hdata y (.tail _ hy))
    obtain ⟨rs, hrs⟩ := hdata x (.head _)
    refine ⟨fun name => if name = x.name then rs else f name, ?_, ?_⟩
    · intro y hy
      rcases List.mem_cons.1 hy with rfl | hy
      · simpa using hrs
      · have : y.name ≠ x.name := fun e => hnd.1 (e ▸ List.mem_map_of_mem hy)
        simp only [if_neg this]
        exact h1 y hy
    · intro name hname
      simp only [List.map_cons, List.mem_cons, not_or] at hname
      simp only [if_neg hname.1]
      exact h2 name hname.2

/-- The world of the records. -/
def recordWorld (sat : String → String → Value → Rec → Bool) (acceptable : String → String → Value → Prop) (records : String → List Rec) : World where
  records := records
  sat _ := sat
  acceptable _ := acceptable

/-- The records show the tables, give the values at the asked paths, and are found like the objects. -/
structure Shows (p : ParsedConfig) (sat : String → String → Value → Rec → Bool) (found : String → String → Value → GoMap Value → Bool) (records : String → List Rec)
    (asked : String → List String) (tables : String → List (GoMap Value)) (name : String) : Prop where
  shown : (records name).map shownOf = tables name
  all : ∀ r ∈ records name, r.all = .ok (shownOf r)
  get : ∀ r ∈ records name, ∀ q ∈ asked name, ∀ v, r.get q = .ok v ↔ ValueAt (shownOf r) q v
  same : ∀ index i q v, IsIndex p index i → Searches i name q → (isFullText p index = true ∨ q ∈ asked name) →
    ∀ r ∈ records name, sat index q v r = found index q v (shownOf r)

theorem mustPrecede_at {sort : List SortConfig} {r s : Rec} {a b : GoMap Value} (hr : ∀ c ∈ sort, ∀ v, r.get c.property = .ok v ↔ ValueAt a c.property v)
    (hs : ∀ c ∈ sort, ∀ v, s.get c.property = .ok v ↔ ValueAt b c.property v) :
    mustPrecede (sort.map (fun c => (c.property, c.ascending != some false))) r s ↔ objectPrecedes sort a b := by
  induction sort with
  | nil => exact Iff.rfl
  | cons c sort ih =>
    have ih := ih (fun c hc => hr c (.tail _ hc)) (fun c hc => hs c (.tail _ hc))
    simp only [List.map_cons, mustPrecede, objectPrecedes]
    refine exists_congr fun v => exists_congr fun w => ?_
    rw [hr c (.head _), hs c (.head _), ih]
    by_cases hc : c.ascending = some false
    · simp [hc]
    · simp [hc, bne_iff_ne]

theorem ordered_related {sort : (Rec → Rec → Bool) → List Rec → List Rec} (hsort : SortContract sort) {criteria : List SortConfig} {related : List Rec}
    (hget : ∀ r ∈ related, ∀ c ∈ criteria, ∀ v, r.get c.property = .ok v ↔ ValueAt (shownOf r) c.property v) :
    Ordered criteria (related.map shownOf) ((if criteria = [] then related else sortRecords sort criteria related).map shownOf) := by
  refine ⟨?_, fun h => by rw [if_pos h], fun h => ?_⟩
  · split
    · exact .refl _
    · exact (hsort.perm _ _).map _
  · by_cases hc : criteria = []
    · subst hc
      rw [if_pos rfl]
      exact List.pairwise_of_forall fun _ _ h => h
    · rw [if_neg hc]
      obtain ⟨h1, h2⟩ := C24_sorted sort hsort criteria related (fun c hc r hr s hs => by
        obtain ⟨v, w, hv, hw, hp⟩ := h c hc _ (List.mem_map_of_mem hr) _ (List.mem_map_of_mem hs)
        exact ⟨v, w, (hget r hr c hc v).2 hv, (hget s hs c hc w).2 hw, hp⟩)
      rw [List.pairwise_map]
      refine List.Pairwise.imp_of_mem ?_ h2
      intro r s hr hs h hp
      exact h ((mustPrecede_at (hget s (h1.mem_iff.1 hs)) (hget r (h1.mem_iff.1 hr))).2 hp)

theorem shownFew_map (isArray : Bool) (limit : Nat) (l : List Rec) : shownFew isArray limit (l.map shownOf) = (kept isArray limit l).map shownOf := by
  unfold shownFew kept
  split
  · split
    · rfl
    · rw [List.map_take]
  · rw [List.map_take]

/-- The criteria with their default. -/
theorem ordered_completed {sort : List SortConfig} {objects ordered : List (GoMap Value)}
    (h : Ordered (sort.map (fun s => { s with ascending := some (s.ascending.getD true) })) objects ordered) : Ordered sort objects ordered := by
  obtain ⟨h1, h2, h3⟩ := h
  refine ⟨h1, fun hs => h2 (by rw [hs]; rfl), fun ht => ?_⟩
  have key : ∀ (sort : List SortConfig) a b, objectPrecedes (sort.map (fun s => { s with ascending := some (s.ascending.getD true) })) a b ↔ objectPrecedes sort a b := by
    intro sort
    induction sort with
    | nil => exact fun _ _ => Iff.rfl
    | cons c sort ih =>
      intro a b
      simp only [List.map_cons, objectPrecedes, ih]
      refine exists_congr fun v => exists_congr fun w => ?_
      cases hc : c.ascending with
      | none => simp
      | some b => cases b <;> simp
  refine (h3 ?_).imp (fun h => by rwa [key] at h)
  intro c hc
  obtain ⟨c, hc', rfl⟩ := List.mem_map.1 hc
  exact ht c hc'

theorem Spec.Loaded.shown {sat : String → String → Value → Rec → Bool} {acceptable : String → String → Value → Prop} {found : String → String → Value → GoMap Value → Bool} {accepts : String → String → Value → Prop}
    {records : String → List Rec} {asked : String → List String} {tables : String → List (GoMap Value)}
    {sort : (Rec → Rec → Bool) → List Rec → List Rec} (hsort : SortContract sort) (hshows : ∀ name ∈ p.inputs.map InputDecl.name, Shows p sat found records asked tables name) :
    ∀ {depth : Nat} {parent : String} {data : GoMap Value} {rels : List (String × Relationship)} {shown : GoMap Value},
      (∀ r ∈ relationshipsAll rels, WellFormedRelationship p r) → FitsObjects p accepts asked tables depth parent rels →
      Loaded (recordWorld sat acceptable records) (sortRecords sort) depth data (completedRelationships rels) shown → ShownWith found tables depth data rels shown
  | 0, parent, data, rels, shown, _, hf, h => by
    obtain ⟨_, h⟩ := h
    exact ⟨hf, h⟩
  | depth + 1, parent, data, rels, shown, hin, ⟨_, hf⟩, ⟨h1, h2⟩ => by
    have hnames : (completedRelationships rels).map (·.1) = rels.map (·.1) := by rw [completedRelationships_map, List.map_map]; rfl
    refine ⟨fun k hk => ?_, fun name rel hm => ?_⟩
    · rw [← mapGet_eq_lookup, ← mapGet_eq_lookup]
      exact h1 k (by rw [hnames]; exact hk)
    · obtain ⟨v, hv, hrel⟩ := h2 name (completedRelationship rel) (by
        rw [completedRelationships_map]; exact List.mem_map_of_mem (f := fun e : String × Relationship => (e.1, completedRelationship e.2)) hm)
      refine ⟨v, by rw [← mapGet_eq_lookup]; exact hv, ?_⟩
      have hall := relationshipsAll_mem hm
      obtain ⟨input, isArray, limit, criteria, ms, nested⟩ := rel
      obtain ⟨_, _, hchild, hcrit, _, hnested⟩ := hf _ _ _ _ _ _ _ hm
      obtain ⟨⟨xi, hxi, hxn⟩, _, _, _, _, hsearch⟩ := hin _ (hall _ (.head _))
      have hs := hshows input (hxn ▸ List.mem_map_of_mem hxi)
      simp only [completedRelationship, HoldsRelated] at hrel
      obtain ⟨items, hlen, hitems, hval⟩ := hrel
      have hrelated : (relatedTo (recordWorld sat acceptable records) data input (ms.map (fun m => { m with childIndex := orText m.childIndex "default" }))).map shownOf =
          relatedObjects found (tables input) data ms := by
        unfold relatedTo relatedObjects
        rw [← hs.shown, List.filter_map]
        congr 1
        refine List.filter_congr fun r hr => ?_
        rw [List.all_map, Function.comp_apply]
        rw [Bool.eq_iff_iff, List.all_eq_true, List.all_eq_true]
        refine forall_congr' fun m => forall_congr' fun hm => ?_
        simp only [Function.comp_apply, mapGet_eq_lookup]
        cases data.lookup m.parentProperty with
        | none => exact Iff.rfl
        | some v =>
          simp only [recordWorld]
          obtain ⟨i, hi, hse⟩ := hsearch m hm
          rw [hs.same (orText m.childIndex "default") i _ _ hi hse (hchild m hm) r hr]
      have hord := ordered_completed (ordered_related hsort (criteria := criteria.map (fun s => { s with ascending := some (s.ascending.getD true) }))
        (related := relatedTo (recordWorld sat acceptable records) data input (ms.map (fun m => { m with childIndex := orText m.childIndex "default" }))) (by
          intro r hr c hc v
          obtain ⟨c, hc', rfl⟩ := List.mem_map.1 hc
          exact hs.get r (List.mem_filter.1 hr).1 _ (hcrit c hc') v))
      rw [hrelated] at hord
      refine ⟨_, items, hord, ?_, ?_, hval⟩
      · rw [shownFew_map, List.length_map]
        exact hlen
      · intro k hk hk'
        simp only [shownFew_map, List.length_map] at hk
        obtain ⟨d, hd, hl⟩ := hitems k hk hk'
        have hmem : (kept isArray limit (if criteria.map (fun s => ({ s with ascending := some (s.ascending.getD true) } : SortConfig)) = [] then
            relatedTo (recordWorld sat acceptable records) data input (ms.map (fun m => { m with childIndex := orText m.childIndex "default" }))
          else sortRecords sort (criteria.map (fun s => { s with ascending := some (s.ascending.getD true) }))
            (relatedTo (recordWorld sat acceptable records) data input (ms.map (fun m => { m with childIndex := orText m.childIndex "default" })))))[k] ∈ records input := by
          have hk1 := List.getElem_mem hk
          have hsub : ∀ l : List Rec, ∀ r ∈ kept isArray limit l, r ∈ l := by
            intro l r hr
            unfold kept at hr
            split at hr
            · split at hr
              · exact hr
              · exact List.mem_of_mem_take hr
            · exact List.mem_of_mem_take hr
          have h2 := hsub _ _ hk1
          have hif : ∀ {related : List Rec} {criteria : List SortConfig} (r : Rec), (r ∈ if criteria = [] then related else sortRecords sort criteria related) → r ∈ related := by
            intro related criteria r hr
            split at hr
            · exact hr
            · exact (hsort.perm _ _).mem_iff.1 hr
          have hrec : ∀ r ∈ relatedTo (recordWorld sat acceptable records) data input (ms.map (fun m => { m with childIndex := orText m.childIndex "default" })), r ∈ records input :=
            fun r hr => (List.mem_filter.1 hr).1
          refine hrec _ ?_
          exact hif _ h2
        rw [hs.all _ hmem] at hd
        cases hd
        simp only [shownFew_map, List.getElem_map]
        refine Spec.Loaded.shown hsort hshows (fun r hr => hin r (hall r ?_)) hnested hl
        simp only [relationshipWithNested, List.mem_cons]
        exact .inr hr

/-- The records of all the inputs are a world of C79. -/
theorem RecordsHold.world {sat : String → String → Value → Rec → Bool} {acceptable : String → String → Value → Prop} {found : String → String → Value → GoMap Value → Bool}
    {asked : String → List String} {tables : String → List (GoMap Value)} {records : String → List Rec}
    (h : ∀ x ∈ p.inputs, RecordsHold config (lib.onFiles files) p env.parsers sat acceptable found x (asked x.name) (tables x.name) (records x.name))
    (hnone : ∀ name, name ∉ p.inputs.map InputDecl.name → records name = []) : WorldOf config (lib.onFiles files) p env.parsers asked (recordWorld sat acceptable records) where
  records x hx := (h x hx).rows
  finds x hx := (h x hx).finds
  shown name r hr := by
    by_cases hn : name ∈ p.inputs.map InputDecl.name
    · obtain ⟨x, hx, rfl⟩ := List.mem_map.1 hn
      exact ⟨_, (h x hx).all r hr, (h x hx).finite _ ((h x hx).shown ▸ List.mem_map_of_mem hr)⟩
    · rw [show (recordWorld sat acceptable records).records name = [] from hnone name hn] at hr
      exact nomatch hr

theorem RecordsHold.shows {sat : String → String → Value → Rec → Bool} {acceptable : String → String → Value → Prop} {found : String → String → Value → GoMap Value → Bool}
    {asked : String → List String} {tables : String → List (GoMap Value)} {records : String → List Rec}
    (h : ∀ x ∈ p.inputs, RecordsHold config (lib.onFiles files) p env.parsers sat acceptable found x (asked x.name) (tables x.name) (records x.name)) :
    ∀ name ∈ p.inputs.map InputDecl.name, Shows p sat found records asked tables name := by
  intro name hn
  obtain ⟨x, hx, rfl⟩ := List.mem_map.1 hn
  exact ⟨(h x hx).shown, (h x hx).all, (h x hx).get, (h x hx).same⟩

theorem Spec.FitsObjects.fits {sat : String → String → Value → Rec → Bool} {acceptable : String → String → Value → Prop} {found : String → String → Value → GoMap Value → Bool} {accepts : String → String → Value → Prop}
    {asked : String → List String} {tables : String → List (GoMap Value)} {records : String → List Rec} {names : List String}
    (hacc : ∀ index i q v, IsIndex p index i → ¬ FindsEqual i → accepts index q v → acceptable index q v) (hshows : ∀ name ∈ names, Shows p sat found records asked tables name) :
    ∀ {depth : Nat} {parent : String} {rels : List (String × Relationship)}, parent ∈ names → (∀ r ∈ relationshipsAll rels, inputOfRelationship r ∈ names) →
      FitsObjects p accepts asked tables depth parent rels → Fits p asked (recordWorld sat acceptable records) depth parent rels
  | 0, _, _, _, _, h => h
  | depth + 1, parent, rels, hp, hin, ⟨h1, h2⟩ => by
    refine ⟨h1, fun name input isArray limit sort ms nested hm => ?_⟩
    obtain ⟨h3, h4, h5, _, h6, h7⟩ := h2 name input isArray limit sort ms nested hm
    have hall := relationshipsAll_mem hm
    refine ⟨h3, h4, h5, ?_, Spec.FitsObjects.fits hacc hshows (hin _ (hall _ (.head _))) (fun r hr => hin r (hall r ?_)) h7⟩
    · intro r hr d hd m hm
      have hs := hshows parent hp
      rw [hs.all r hr] at hd
      cases hd
      obtain ⟨v, hv, hsc, ha⟩ := h6 (shownOf r) (hs.shown ▸ List.mem_map_of_mem hr) m hm
      exact ⟨v, by rw [mapGet_eq_lookup]; exact hv, hsc, fun i hi hne => hacc _ i _ _ hi hne ha⟩
    · simp only [relationshipWithNested, List.mem_cons]
      exact .inr hr

theorem filter_shown {sat : String → String → Value → Rec → Bool} {found : String → String → Value → GoMap Value → Bool} {records : String → List Rec} {asked : String → List String}
    {tables : String → List (GoMap Value)} {name : String} (hs : Shows p sat found records asked tables name) (conditions : List Condition)
    (hc : ∀ c ∈ conditions, ∃ i, IsIndex p c.index i ∧ Searches i name c.property ∧ (isFullText p c.index = true ∨ c.property ∈ asked name)) (r : Rec) (hr : r ∈ records name) :
    conditions.all (fun c => sat c.index c.property c.value r) = conditions.all (fun c => found c.index c.property c.value (shownOf r)) := by
  rw [Bool.eq_iff_iff, List.all_eq_true, List.all_eq_true]
  refine forall_congr' fun c => forall_congr' fun hm => ?_
  obtain ⟨i, h1, h2, h3⟩ := hc c hm
  rw [hs.same _ i _ _ h1 h2 h3 r hr]

theorem find?_same {α : Type} {f g : α → Bool} : ∀ {l : List α}, (∀ a ∈ l, f a = g a) → l.find? f = l.find? g
  | [], _ => rfl
  | a :: l, h => by rw [List.find?_cons, List.find?_cons, h a (.head _), find?_same fun b hb => h b (.tail _ hb)]

theorem relationships_inputs {rels : List (String × Relationship)} (h : ∀ r ∈ relationshipsAll rels, WellFormedRelationship p r) :
    ∀ r ∈ relationshipsAll rels, inputOfRelationship r ∈ p.inputs.map InputDecl.name := by
  intro r hr
  have hr := h r hr
  cases r with
  | mk input isArray limit sort ms nested =>
    obtain ⟨⟨x, hx, hn⟩, _⟩ := hr
    exact hn ▸ List.mem_map_of_mem hx

/-- Responses of list outputs with relationships, from the records of all the inputs. -/
theorem list_from_tables (service : ServiceLib) (hlib : RegexpContract service.find) (formatFloat : Int → Bytes) (hencode : service.encode = encodeJson formatFloat) (config : ConfigLib)
    (lib : StartLib) (hsort : SortContract lib.sort) (files : Files) (p : ParsedConfig) (texts : GoMap TextParser) (env : OutputEnv) (apis : GoMap OutputApi)
    (running : GoMap (String × List Route)) (hrun : Running config (lib.onFiles files) p texts env apis running) (hw : WellFormed config p) (hdef : PlainDefault p)
    (hvisit : ∀ (path : List Nat) (α : Type) (l : List α), (lib.visit path l).Perm l)
    (s : ServiceDecl) (hs : s ∈ p.services) (k : Nat) (hk : k < s.routes.length) (d : ArrayConfig) (ho : .array s.routes[k].output d ∈ p.outputs)
    (first : List Char) (placeholders : List (List Char × List Char)) (hpath : s.routes[k].path.toList = template first placeholders)
    (hg : GoodTemplate first placeholders) (parsers : List TextParser) (hp : PlaceholderParsers (lib.onFiles files) p d.parameters placeholders parsers)
    (hr : ∀ p ∈ parsers, RouteParser p) (hu : ∀ p ∈ parsers.dropLast, Ungrouped p)
    (asked : String → List String) (tables : String → List (GoMap Value))
    (sat : String → String → Value → Rec → Bool) (acceptable : String → String → Value → Prop)
    (found : String → String → Value → GoMap Value → Bool) (accepts : String → String → Value → Prop)
    (hacc : ∀ index i q v, IsIndex p index i → ¬ FindsEqual i → accepts index q v → acceptable index q v)
    (hdata : ∀ x ∈ p.inputs, ∃ records, RecordsHold config (lib.onFiles files) p env.parsers sat acceptable found x (asked x.name) (tables x.name) records)
    (hasked : ∀ q ∈ filteredValues p d.parameters, q ∈ asked d.input)
    (hfits : FitsObjects p accepts asked tables (depthOf d.relationships) d.input d.relationships) :
    ∃ routes, mapGet running s.name = some ("application/json", routes) ∧ ∃ h : k < routes.length,
      (∀ request : Request, Suits routes[k] request ↔
        request.method = "GET" ∧ ∃ given, PlaceholderTexts parsers given ∧ request.path = filled first placeholders given) ∧
      ∀ request : Request, FirstSuiting routes request routes[k] → GoodQuery request.query →
        ∃ given, PlaceholderTexts parsers given ∧ request.path = filled first placeholders given ∧
          SeenAs service routes[k] request placeholders given ∧ ∀ params : GoMap Bytes, params = requestParameters (placeholders.map (fun p => String.ofList p.1)) given request.query →
          ∀ (conditions : List Condition) (limit offset : Nat),
            Reads env (givenParameters (d.parameters.map (fun e => (e.1, completedParameter e.2))) params) conditions →
            (∀ c ∈ conditions, accepts c.index c.property c.value) →
            AskedLimit ⟨orNumber d.limit.default 100, orNumber d.limit.max 1000, orText d.limit.parameter "limit"⟩ params limit →
            AskedOffset (orText d.offsetParameter "offset") params offset → min limit (orNumber d.limit.max 1000) < 2^63 →
            ∃ kept, OneForEach conditions kept ∧
            let window := (((tables d.input).filter (fun o => kept.all (fun c => found c.index c.property c.value o))).drop offset).take
              (min limit (orNumber d.limit.max 1000))
            ∃ response, clientGets (handleRequest service "application/json" routes request) = some response ∧ response.status = 200 ∧
              mapGet response.headers "Content-Type" = some "application/json; charset=UTF-8" ∧
              ∃ rows : List (GoMap Value), encodeJson formatFloat (.arr (rows.map .obj)) = .ok response.body ∧ rows.length = window.length ∧
                ∀ k (h : k < window.length) (h' : k < rows.length), ShownWith found tables (depthOf d.relationships) window[k] d.relationships rows[k] := by
  obtain ⟨records, hrec, hnone⟩ := all_records hw hdata
  have hshows := RecordsHold.shows hrec
  have hd := hw.outputs _ ho
  obtain ⟨x, hx, hxn⟩ := hd.2.1
  have hin : d.input ∈ p.inputs.map InputDecl.name := by rw [← hxn]; exact List.mem_map_of_mem hx
  have hrels := relationships_inputs hd.2.2.2.2
  obtain ⟨routes, h1, h2, h3, h4⟩ := list_related service hlib (by rw [hencode]; exact C84_encoder_contract formatFloat) config (lib.onFiles files) hsort p texts env apis running
    hrun hw hdef hvisit s hs k hk d ho first placeholders hpath hg parsers hp hr hu asked (recordWorld sat acceptable records) (RecordsHold.world hrec hnone) hasked
    (Spec.FitsObjects.fits hacc hshows hin hrels hfits)
  refine ⟨routes, h1, h2, h3, fun request hfirst hq => ?_⟩
  obtain ⟨given, h5, h6, h0, h7⟩ := h4 request hfirst hq
  refine ⟨given, h5, h6, h0, fun params hparams conditions limit offset hreads hask hlimit hoffset hlt => ?_⟩
  obtain ⟨kept, hkept, response, g1, g2, g3, rows, g4, g5, g6⟩ := h7 params hparams conditions limit offset hreads (fun c hc i hi hne => hacc _ i _ _ hi hne (hask c hc)) hlimit hoffset hlt
  refine ⟨kept, hkept, ?_⟩
  have hs := hshows d.input hin
  have hcond : ∀ r ∈ records d.input, kept.all (fun c => (recordWorld sat acceptable records).sat d.input c.index c.property c.value r) =
      kept.all (fun c => found c.index c.property c.value (shownOf r)) := by
    refine filter_shown hs kept (fun c hc => ?_)
    obtain ⟨e, he, hp, hi⟩ := hreads.property c (hkept.chosen c hc)
    simp only [givenParameters, List.filterMap_map, List.mem_filterMap, Function.comp_def, Option.map_eq_some_iff] at he
    obtain ⟨⟨n, q⟩, hq, t, _, rfl⟩ := he
    obtain ⟨_, ⟨i, h8, h9⟩, _⟩ := (hd.2.2.2.1 n q hq).1
    rw [hp, hi]
    exact ⟨i, h8, h9, filteredValues_or hasked hq⟩
  have hwin : ((((recordWorld sat acceptable records).records d.input).filter (fun r => kept.all (fun c => (recordWorld sat acceptable records).sat d.input c.index c.property c.value r))).drop offset).take
        (min limit (orNumber d.limit.max 1000)) =
      (((records d.input).filter ((fun o => kept.all (fun c => found c.index c.property c.value o)) ∘ shownOf)).drop offset).take (min limit (orNumber d.limit.max 1000)) := by
    rw [show (recordWorld sat acceptable records).records d.input = records d.input from rfl, List.filter_congr hcond]
    rfl
  simp only [hwin] at g5 g6
  rw [hencode] at g4
  rw [← hs.shown]
  simp only [List.filter_map, ← List.map_drop, ← List.map_take, List.length_map, List.getElem_map]
  refine ⟨response, g1, g2, g3, rows, g4, g5, fun k h h' => ?_⟩
  obtain ⟨data, k1, k2⟩ := g6 k h h'
  rw [hs.all _ (List.mem_filter.1 (List.mem_of_mem_drop (List.mem_of_mem_take (List.getElem_mem h)))).1] at k1
  cases k1
  exact Spec.Loaded.shown hsort hshows hd.2.2.2.2 hfits k2

/-- Responses of object outputs with relationships, from the records of all the inputs. -/
theorem object_from_tables (service : ServiceLib) (hlib : RegexpContract service.find) (formatFloat : Int → Bytes) (hencode : service.encode = encodeJson formatFloat) (config : ConfigLib)
    (lib : StartLib) (hsort : SortContract lib.sort) (files : Files) (p : ParsedConfig) (texts : GoMap TextParser) (env : OutputEnv) (apis : GoMap OutputApi)
    (running : GoMap (String × List Route)) (hrun : Running config (lib.onFiles files) p texts env apis running) (hw : WellFormed config p) (hdef : PlainDefault p)
    (hvisit : ∀ (path : List Nat) (α : Type) (l : List α), (lib.visit path l).Perm l)
    (s : ServiceDecl) (hs : s ∈ p.services) (k : Nat) (hk : k < s.routes.length) (d : ObjectConfig) (ho : .object s.routes[k].output d ∈ p.outputs)
    (first : List Char) (placeholders : List (List Char × List Char)) (hpath : s.routes[k].path.toList = template first placeholders)
    (hg : GoodTemplate first placeholders) (parsers : List TextParser) (hp : PlaceholderParsers (lib.onFiles files) p d.parameters placeholders parsers)
    (hr : ∀ p ∈ parsers, RouteParser p) (hu : ∀ p ∈ parsers.dropLast, Ungrouped p)
    (asked : String → List String) (tables : String → List (GoMap Value))
    (sat : String → String → Value → Rec → Bool) (acceptable : String → String → Value → Prop)
    (found : String → String → Value → GoMap Value → Bool) (accepts : String → String → Value → Prop)
    (hacc : ∀ index i q v, IsIndex p index i → ¬ FindsEqual i → accepts index q v → acceptable index q v)
    (hdata : ∀ x ∈ p.inputs, ∃ records, RecordsHold config (lib.onFiles files) p env.parsers sat acceptable found x (asked x.name) (tables x.name) records)
    (hasked : ∀ q ∈ filteredValues p d.parameters, q ∈ asked d.input)
    (hfits : FitsObjects p accepts asked tables (depthOf d.relationships) d.input d.relationships) :
    ∃ routes, mapGet running s.name = some ("application/json", routes) ∧ ∃ h : k < routes.length,
      (∀ request : Request, Suits routes[k] request ↔
        request.method = "GET" ∧ ∃ given, PlaceholderTexts parsers given ∧ request.path = filled first placeholders given) ∧
      ∀ request : Request, FirstSuiting routes request routes[k] → GoodQuery request.query →
        ∃ given, PlaceholderTexts parsers given ∧ request.path = filled first placeholders given ∧
          SeenAs service routes[k] request placeholders given ∧ ∀ params : GoMap Bytes, params = requestParameters (placeholders.map (fun p => String.ofList p.1)) given request.query →
          ∀ conditions : List Condition, Reads env (allParameters (d.parameters.map (fun e => (e.1, completedParameter e.2))) params) conditions →
            (∀ c ∈ conditions, accepts c.index c.property c.value) →
            ∃ kept, OneForEach conditions kept ∧ ∃ response, clientGets (handleRequest service "application/json" routes request) = some response ∧
              match (tables d.input).find? (fun o => kept.all (fun c => found c.index c.property c.value o)) with
              | none => response.status = 404
              | some o => response.status = 200 ∧ mapGet response.headers "Content-Type" = some "application/json; charset=UTF-8" ∧
                  ∃ shown, encodeJson formatFloat (.obj shown) = .ok response.body ∧ ShownWith found tables (depthOf d.relationships) o d.relationships shown := by
  obtain ⟨records, hrec, hnone⟩ := all_records hw hdata
  have hshows := RecordsHold.shows hrec
  have hd := hw.outputs _ ho
  obtain ⟨x, hx, hxn⟩ := hd.2.1
  have hin : d.input ∈ p.inputs.map InputDecl.name := by rw [← hxn]; exact List.mem_map_of_mem hx
  have hrels := relationships_inputs hd.2.2.2.2
  obtain ⟨routes, h1, h2, h3, h4⟩ := object_related service hlib (by rw [hencode]; exact C84_encoder_contract formatFloat) config (lib.onFiles files) hsort p texts env apis
    running hrun hw hdef hvisit s hs k hk d ho first placeholders hpath hg parsers hp hr hu asked (recordWorld sat acceptable records) (RecordsHold.world hrec hnone) hasked
    (Spec.FitsObjects.fits hacc hshows hin hrels hfits)
  refine ⟨routes, h1, h2, h3, fun request hfirst hq => ?_⟩
  obtain ⟨given, h5, h6, h0, h7⟩ := h4 request hfirst hq
  refine ⟨given, h5, h6, h0, fun params hparams conditions hreads hask => ?_⟩
  obtain ⟨kept, hkept, response, g1, g2⟩ := h7 params hparams conditions hreads (fun c hc i hi hne => hacc _ i _ _ hi hne (hask c hc))
  refine ⟨kept, hkept, response, g1, ?_⟩
  have hs := hshows d.input hin
  have hcond : ∀ r ∈ records d.input, kept.all (fun c => (recordWorld sat acceptable records).sat d.input c.index c.property c.value r) =
      kept.all (fun c => found c.index c.property c.value (shownOf r)) := by
    refine filter_shown hs kept (fun c hc => ?_)
    obtain ⟨e, he, hp, hi⟩ := hreads.property c (hkept.chosen c hc)
    simp only [allParameters, List.map_map, List.mem_map, Function.comp_def] at he
    obtain ⟨⟨n, q⟩, hq, rfl⟩ := he
    obtain ⟨_, ⟨i, h8, h9⟩, _⟩ := hd.2.2.2.1 n q hq
    rw [hp, hi]
    exact ⟨i, h8, h9, filteredValues_or hasked hq⟩
  rw [← hs.shown, List.find?_map]
  have hfind : (records d.input).find? ((fun o => kept.all (fun c => found c.index c.property c.value o)) ∘ shownOf) =
      ((recordWorld sat acceptable records).records d.input).find? (fun r => kept.all (fun c => (recordWorld sat acceptable records).sat d.input c.index c.property c.value r)) :=
    find?_same fun r hr => (hcond r hr).symm
  rw [hfind]
  cases hf : ((recordWorld sat acceptable records).records d.input).find? (fun r => kept.all (fun c => (recordWorld sat acceptable records).sat d.input c.index c.property c.value r)) with
  | none => rw [hf] at g2; exact g2
  | some r =>
    rw [hf] at g2
    obtain ⟨k1, k2, data, shown, k3, k4, k5⟩ := g2
    rw [hs.all _ (List.mem_of_find?_eq_some hf)] at k3
    cases k3
    rw [hencode] at k4
    exact ⟨k1, k2, shown, k4, Spec.Loaded.shown hsort hshows hd.2.2.2.2 hfits k5⟩

/-- **C87** From the bytes of all the files to the bytes of the response, for lists: in a running program whose inputs are CSV, JSON and XML files that hold the objects of `tables`, a
request to a route of a list output is answered with status 200 and the JSON text of the array of exactly the objects that have the values given in the path and the query
string, in the order of the file, from the asked offset on, at most the asked limit of them; each is shown with its relationships, nested to any depth: the objects of
the other files that have the matched values, sorted as declared, at most as many as declared.
Of several conditions on one property of one index, one counts (`kept`, see C45). -/
theorem C87_list_from_files (service : ServiceLib) (hlib : RegexpContract service.find) (formatFloat : Int → Bytes) (hencode : service.encode = encodeJson formatFloat) (config : ConfigLib)
    (lib : StartLib) (hsort : SortContract lib.sort) (files : Files) (p : ParsedConfig) (texts : GoMap TextParser) (env : OutputEnv) (apis : GoMap OutputApi)
    (running : GoMap (String × List Route)) (hrun : Running config (lib.onFiles files) p texts env apis running) (hw : WellFormed config p) (hdef : PlainDefault p)
    (hvisit : ∀ (path : List Nat) (α : Type) (l : List α), (lib.visit path l).Perm l)
    (s : ServiceDecl) (hs : s ∈ p.services) (k : Nat) (hk : k < s.routes.length) (d : ArrayConfig) (ho : .array s.routes[k].output d ∈ p.outputs)
    (first : List Char) (placeholders : List (List Char × List Char)) (hpath : s.routes[k].path.toList = template first placeholders)
    (hg : GoodTemplate first placeholders) (parsers : List TextParser) (hp : PlaceholderParsers (lib.onFiles files) p d.parameters placeholders parsers)
    (hr : ∀ p ∈ parsers, RouteParser p) (hu : ∀ p ∈ parsers.dropLast, Ungrouped p)
    (parseFloat : Bytes → Res GoFloat) (asked : String → List String) (tables : String → List (GoMap Value))
    (hdata : ∀ x ∈ p.inputs, FileData files parseFloat p env.parsers x (asked x.name) (tables x.name)) (hasked : ∀ q ∈ filteredValues p d.parameters, q ∈ asked d.input)
    (hfits : FitsObjects p (fun _ _ _ => True) asked tables (depthOf d.relationships) d.input d.relationships) :
    ∃ routes, mapGet running s.name = some ("application/json", routes) ∧ ∃ h : k < routes.length,
      (∀ request : Request, Suits routes[k] request ↔
        request.method = "GET" ∧ ∃ given, PlaceholderTexts parsers given ∧ request.path = filled first placeholders given) ∧
      ∀ request : Request, FirstSuiting routes request routes[k] → GoodQuery request.query →
        ∃ given, PlaceholderTexts parsers given ∧ request.path = filled first placeholders given ∧
          ∀ params : GoMap Bytes, params = requestParameters (placeholders.map (fun p => String.ofList p.1)) given request.query →
          ∀ (conditions : List Condition) (limit offset : Nat),
            Reads env (givenParameters (d.parameters.map (fun e => (e.1, completedParameter e.2))) params) conditions →
            AskedLimit ⟨orNumber d.limit.default 100, orNumber d.limit.max 1000, orText d.limit.parameter "limit"⟩ params limit →
            AskedOffset (orText d.offsetParameter "offset") params offset → min limit (orNumber d.limit.max 1000) < 2^63 →
            ∃ kept, OneForEach conditions kept ∧
            let window := (((tables d.input).filter (fun o => kept.all (fun c => hasValueAt o c.property c.value))).drop offset).take
              (min limit (orNumber d.limit.max 1000))
            ∃ response, clientGets (handleRequest service "application/json" routes request) = some response ∧ response.status = 200 ∧
              mapGet response.headers "Content-Type" = some "application/json; charset=UTF-8" ∧
              ∃ rows : List (GoMap Value), encodeJson formatFloat (.arr (rows.map .obj)) = .ok response.body ∧ rows.length = window.length ∧
                ∀ k (h : k < window.length) (h' : k < rows.length), ShownWith equalAt tables (depthOf d.relationships) window[k] d.relationships rows[k] := by
  obtain ⟨routes, h1, h2, h3, h4⟩ := list_from_tables service hlib formatFloat hencode config lib hsort files p texts env apis running hrun hw hdef hvisit s hs k hk d ho first placeholders hpath hg parsers hp
    hr hu asked tables _ _ equalAt (fun _ _ _ => True) (fun _ _ _ _ _ _ _ => trivial) (fun x hx => (hdata x hx).records hrun hw hx) hasked hfits
  refine ⟨routes, h1, h2, h3, fun request hfirst hq => ?_⟩
  obtain ⟨given, h5, h6, _, h7⟩ := h4 request hfirst hq
  refine ⟨given, h5, h6, fun params hparams conditions limit offset hreads hlimit hoffset hlt =>
    h7 params hparams conditions limit offset hreads (fun _ _ => trivial) hlimit hoffset hlt⟩

/-- **C87** From the bytes of all the files to the bytes of the response, for objects: status 200 and the JSON text of the first object with the given values, shown with its
relationships, or status 404 if there is none.
Of several conditions on one property of one index, one counts (`kept`, see C45). -/
theorem C87_object_from_files (service : ServiceLib) (hlib : RegexpContract service.find) (formatFloat : Int → Bytes) (hencode : service.encode = encodeJson formatFloat) (config : ConfigLib)
    (lib : StartLib) (hsort : SortContract lib.sort) (files : Files) (p : ParsedConfig) (texts : GoMap TextParser) (env : OutputEnv) (apis : GoMap OutputApi)
    (running : GoMap (String × List Route)) (hrun : Running config (lib.onFiles files) p texts env apis running) (hw : WellFormed config p) (hdef : PlainDefault p)
    (hvisit : ∀ (path : List Nat) (α : Type) (l : List α), (lib.visit path l).Perm l)
    (s : ServiceDecl) (hs : s ∈ p.services) (k : Nat) (hk : k < s.routes.length) (d : ObjectConfig) (ho : .object s.routes[k].output d ∈ p.outputs)
    (first : List Char) (placeholders : List (List Char × List Char)) (hpath : s.routes[k].path.toList = template first placeholders)
    (hg : GoodTemplate first placeholders) (parsers : List TextParser) (hp : PlaceholderParsers (lib.onFiles files) p d.parameters placeholders parsers)
    (hr : ∀ p ∈ parsers, RouteParser p) (hu : ∀ p ∈ parsers.dropLast, Ungrouped p)
    (parseFloat : Bytes → Res GoFloat) (asked : String → List String) (tables : String → List (GoMap Value))
    (hdata : ∀ x ∈ p.inputs, FileData files parseFloat p env.parsers x (asked x.name) (tables x.name)) (hasked : ∀ q ∈ filteredValues p d.parameters, q ∈ asked d.input)
    (hfits : FitsObjects p (fun _ _ _ => True) asked tables (depthOf d.relationships) d.input d.relationships) :
    ∃ routes, mapGet running s.name = some ("application/json", routes) ∧ ∃ h : k < routes.length,
      (∀ request : Request, Suits routes[k] request ↔
        request.method = "GET" ∧ ∃ given, PlaceholderTexts parsers given ∧ request.path = filled first placeholders given) ∧
      ∀ request : Request, FirstSuiting routes request routes[k] → GoodQuery request.query →
        ∃ given, PlaceholderTexts parsers given ∧ request.path = filled first placeholders given ∧
          ∀ params : GoMap Bytes, params = requestParameters (placeholders.map (fun p => String.ofList p.1)) given request.query →
          ∀ conditions : List Condition, Reads env (allParameters (d.parameters.map (fun e => (e.1, completedParameter e.2))) params) conditions →
            ∃ kept, OneForEach conditions kept ∧ ∃ response, clientGets (handleRequest service "application/json" routes request) = some response ∧
              match (tables d.input).find? (fun o => kept.all (fun c => hasValueAt o c.property c.value)) with
              | none => response.status = 404
              | some o => response.status = 200 ∧ mapGet response.headers "Content-Type" = some "application/json; charset=UTF-8" ∧
                  ∃ shown, encodeJson formatFloat (.obj shown) = .ok response.body ∧ ShownWith equalAt tables (depthOf d.relationships) o d.relationships shown := by
  obtain ⟨routes, h1, h2, h3, h4⟩ := object_from_tables service hlib formatFloat hencode config lib hsort files p texts env apis running hrun hw hdef hvisit s hs k hk d ho first placeholders hpath hg parsers hp
    hr hu asked tables _ _ equalAt (fun _ _ _ => True) (fun _ _ _ _ _ _ _ => trivial) (fun x hx => (hdata x hx).records hrun hw hx) hasked hfits
  refine ⟨routes, h1, h2, h3, fun request hfirst hq => ?_⟩
  obtain ⟨given, h5, h6, _, h7⟩ := h4 request hfirst hq
  refine ⟨given, h5, h6, fun params hparams conditions hreads => h7 params hparams conditions hreads (fun _ _ => trivial)⟩

namespace RelatedFilesExample
/-- A CSV file and a JSON file, and the route /all to the list of the rows, each with the array of the JSON objects that have the text of the row at o.s. -/
def list : ArrayConfig := { input := "in", limit := ⟨0, 0, ""⟩, offsetParameter := "", parameters := [],
                            relationships := [("facts", .mk "facts" true 0 [⟨"o.s", some false⟩] [⟨"s", "o.s", "map"⟩] [])] }
def one : ObjectConfig := { input := "in", parameters := [("n", { property := "n", index := "", parser := "integer" })], relationships := list.relationships }
def web : ServiceDecl := { name := "web", http := some "", https := none, errorsType := "", routes := [⟨"list", "/all"⟩, ⟨"one", "/one"⟩] }
def facts : JsonDecl := { name := "facts", path := "in.json", dieOnInputChange := none }
def parsed : ParsedConfig where
  parsers := []
  inputs := [.csv FilesExample.decl, .json facts]
  indexes := [.map { name := "map", input := "facts", properties := ["o.s"] }]
  services := [web]
  outputs := [.array "list" list, .object "one" one]
def machine : Files where
  content path := if path = "in.csv" then FilesExample.machine.content path else JsonFilesExample.machine.content path
  modTimeNs _ := 0
  decodeJson := jsonDecoder JsonExample.parse
  lexXml _ := ([], .eof)
  xpath := FilesExample.noXPath
  fetchedXml _ _ := []
  ahead _ _ := [3, 7]
  shared _ _ := (5, [], [100])
def asked (name : String) : List String := if name = "in" then ["n"] else ["o.s"]
def tables (name : String) : List (GoMap Value) := if name = "in" then FilesExample.objects else JsonFilesExample.objects
theorem starts : ∃ c, loadConfig ConfigExample.lib parsed = .ok c ∧ ∃ running, start ((RelatedExample.startLib FilesExample.noParsers).onFiles machine) c = .ok running := by
  have h : (match loadConfig ConfigExample.lib parsed with
      | .ok c => (match start ((RelatedExample.startLib FilesExample.noParsers).onFiles machine) c with | .ok _ => true | .error _ => false)
      | .error _ => false) = true := by decide +kernel
  cases hc : loadConfig ConfigExample.lib parsed with
  | error e => rw [hc] at h; cases h
  | ok c =>
    rw [hc] at h
    simp only at h
    refine ⟨c, rfl, ?_⟩
    cases hs : start ((RelatedExample.startLib FilesExample.noParsers).onFiles machine) c with
    | error e => rw [hs] at h; cases h
    | ok running => exact ⟨running, rfl⟩
theorem plain_default : PlainDefault parsed := by
  intro i hi
  rcases hi with ⟨h, e⟩ | ⟨_, h, _⟩
  · rw [List.mem_singleton.1 h] at e
    exact absurd e (by decide)
  · exact ⟨_, List.mem_singleton.1 h⟩
theorem parser {parserLib : ParserLib} {texts : GoMap TextParser} {env : OutputEnv} {apis : GoMap OutputApi} {running : GoMap (String × List Route)}
    (hrun : Running ConfigExample.lib ((RelatedExample.startLib parserLib).onFiles machine) parsed texts env apis running) :
    mapGet env.parsers "integer" = some (Rodb.parse parserLib (texts.map (fun q => (q.1, q.2.config))) texts.length (.integer [])) ∧
    mapGet env.parsers "string" = some (Rodb.parse parserLib (texts.map (fun q => (q.1, q.2.config))) texts.length (.string none)) := by
  have key : ∀ {n x}, IsParser parsed n x → ∃ t, RunsParser ((RelatedExample.startLib parserLib).onFiles machine) (completedParser x) t ∧ mapGet env.parsers n =
      some (Rodb.parse parserLib (texts.map (fun q => (q.1, q.2.config))) texts.length t.config) := by
    intro n x hx
    obtain ⟨t, ht, hr⟩ := hrun.parsers _ _ hx
    refine ⟨t, hr, ?_⟩
    rw [hrun.functions, parseFunctions, mapGet_mapValues (fun q : TextParser => Rodb.parse ((RelatedExample.startLib parserLib).onFiles machine).parserLib
      (texts.map (fun q => (q.1, q.2.config))) texts.length q.config), ht]
    rfl
  obtain ⟨t, ht, h⟩ := key (n := "integer") (x := ⟨"integer", .integer ""⟩) (.inr ⟨by simp [parsed], by simp [builtinParsers], rfl⟩)
  obtain ⟨u, hu, g⟩ := key (n := "string") (x := ⟨"string", .string ""⟩) (.inr ⟨by simp [parsed], by simp [builtinParsers], rfl⟩)
  rw [show t = .integer [] from ht] at h
  rcases hu with ⟨_, rfl⟩ | ⟨hc, _⟩
  · exact ⟨h, g⟩
  · exact (hc rfl).elim
theorem data {parserLib : ParserLib} {texts : GoMap TextParser} {env : OutputEnv} {apis : GoMap OutputApi} {running : GoMap (String × List Route)}
    (hrun : Running ConfigExample.lib ((RelatedExample.startLib parserLib).onFiles machine) parsed texts env apis running) :
    ∀ x ∈ parsed.inputs, FileData machine JsonExample.parse parsed env.parsers x (asked x.name) (tables x.name) := by
  intro x hx
  simp only [parsed, List.mem_cons, List.not_mem_nil, or_false] at hx
  rcases hx with rfl | rfl
  · obtain ⟨h1, h2⟩ := parser hrun
    have hint : ∀ cell v, integerParse [] cell = .ok v → Rodb.parse parserLib (texts.map (fun q => (q.1, q.2.config))) texts.length (.integer []) cell = .ok v := by
      intro cell v h
      simp only [Rodb.parse]; exact h
    have hstr : ∀ cell, Rodb.parse parserLib (texts.map (fun q => (q.1, q.2.config))) texts.length (.string none) cell = .ok (.str cell) := by
      intro cell
      simp only [Rodb.parse, stringParse]
    have hrow : ∀ a b v, integerParse [] a = .ok v → RowReads env.parsers [⟨"n", "integer"⟩, ⟨"s", "string"⟩] [a, b] [("n", v), ("s", .str b)] :=
      fun a b v h => ⟨_, _, _, h1, hint a v h, ⟨_, _, _, h2, hstr b, rfl, rfl⟩, rfl⟩
    refine ⟨⟨⟨_, _, FilesExample.file, ⟨_, _, hrow _ _ _ rfl, ⟨_, _, hrow _ _ _ rfl, ⟨_, _, hrow _ _ _ rfl, rfl, rfl⟩, rfl⟩, rfl⟩, ?_, ?_⟩, ?_⟩, ?_⟩
    · intro q hq
      have hq : q ∈ ["n"] := hq
      rw [List.mem_singleton.1 hq]
      exact ⟨⟨"n", [], rfl, by decide⟩, fun o _ => ⟨_, (valueAt_name (by decide)).2 rfl⟩⟩
    · intro m hm hname
      cases List.mem_singleton.1 hm
      exact absurd hname (by decide)
    · intro o ho
      simp only [tables, InputDecl.name, FilesExample.decl, if_pos, FilesExample.objects, List.mem_cons, List.not_mem_nil, or_false] at ho
      rcases ho with rfl | rfl | rfl <;> (intro h; cases h with | @obj m k v hm hv => simp at hm; rcases hm with ⟨_, rfl⟩ | ⟨_, rfl⟩ <;> cases hv)
    · intro i hi _
      rw [List.mem_singleton.1 hi]
      exact .inl ⟨_, rfl⟩
  · have h := JsonFilesExample.data
    refine ⟨⟨rfl, h.file, h.data, ?_, ?_⟩, ?_⟩
    · exact h.paths
    · intro m hm _ q hq
      cases List.mem_singleton.1 hm
      rw [List.mem_singleton.1 hq]
      exact ⟨by decide, JsonFilesExample.value_at⟩
    · intro i hi _
      rw [List.mem_singleton.1 hi]
      exact .inl ⟨_, rfl⟩
theorem fits : FitsObjects parsed (fun _ _ _ => True) asked tables (depthOf list.relationships) "in" list.relationships := by
  refine ⟨by decide, ?_⟩
  intro name input isArray limit sort ms nested hm
  cases List.mem_singleton.1 hm
  refine ⟨by decide, ?_, ?_, ?_, ?_, rfl⟩
  · intro m _ other ho hne
    exact (hne (List.mem_singleton.1 ho)).elim
  · decide
  · decide
  · intro o ho m hm
    cases List.mem_singleton.1 hm
    have ho : o ∈ FilesExample.objects := ho
    simp only [FilesExample.objects, List.mem_cons, List.not_mem_nil, or_false] at ho
    rcases ho with rfl | rfl | rfl <;> exact ⟨_, rfl, trivial, trivial⟩
def request (path : String) (query : List (String × List Bytes)) : Request := { method := "GET", contentType := "", path := path.toList, query := query, body := .ok [] }
/-- What is shown for a row with a text: the objects of the JSON file that have it; here for the case that there is one. -/
theorem shown_row {n : Int} {text : Bytes} {fact : GoMap Value} {row : GoMap Value}
    (hfacts : JsonFilesExample.objects.filter (fun o => propEquals (jsonRecord o 0) "o.s" (.str text)) = [fact])
    (h : ShownWith equalAt tables 1 [("n", .int n), ("s", .str text)] list.relationships row) :
    row.lookup "n" = some (.int n) ∧ row.lookup "s" = some (.str text) ∧ row.lookup "facts" = some (.arr [.obj fact]) := by
  obtain ⟨h1, h2⟩ := h
  obtain ⟨v, hv, ordered, items, h3, h4, h5, h6⟩ := h2 _ _ (.head _)
  refine ⟨h1 _ (by decide), h1 _ (by decide), ?_⟩
  have hrel : relatedObjects equalAt (tables "facts") [("n", .int n), ("s", .str text)] [⟨"s", "o.s", "map"⟩] = [fact] := by
    rw [relatedObjects, show tables "facts" = JsonFilesExample.objects from rfl]
    have hl : List.lookup "s" [("n", Value.int n), ("s", Value.str text)] = some (.str text) := rfl
    simp only [List.all_cons, List.all_nil, Bool.and_true, hl, equalAt, ← jsonRecord_equals (position := 0) (q := "o.s") (by decide)]
    exact hfacts
  rw [hrel] at h3
  obtain ⟨h3, _⟩ := h3
  rw [List.perm_singleton] at h3
  subst h3
  match items, h4, h5, h6 with
  | [item], _, h5, h6 =>
    obtain ⟨_, h5⟩ := h5 0 (Nat.lt_succ_self 0) (by simp)
    have h5 : item = fact := h5
    subst h5
    rcases h6 with ⟨_, rfl⟩ | ⟨h, _⟩ | ⟨h, _⟩
    · exact hv
    · cases h
    · cases h
end RelatedFilesExample

/-- GET /all?offset=1&limit=1 in the program started on the two files: the row 1,b, with the JSON object that has b at o.s. -/
example (service : ServiceLib) (hlib : RegexpContract service.find) (hencode : service.encode = encodeJson JsonExample.format) (parserLib : ParserLib) (c : Config)
    (hload : loadConfig ConfigExample.lib RelatedFilesExample.parsed = .ok c) (running)
    (hstart : start ((RelatedExample.startLib parserLib).onFiles RelatedFilesExample.machine) c = .ok running) :
    ∃ routes, mapGet running "web" = some ("application/json", routes) ∧ ∃ response,
      clientGets (handleRequest service "application/json" routes (RelatedFilesExample.request "/all" [("offset", [[49]]), ("limit", [[49]])])) = some response ∧
        response.status = 200 ∧ ∃ row : GoMap Value, encodeJson JsonExample.format (.arr [.obj row]) = .ok response.body ∧
          row.lookup "n" = some (.int 1) ∧ row.lookup "s" = some (.str [98]) ∧ row.lookup "facts" = some (.arr [.obj [("o", .obj [("s", .str [98])])]]) := by
  obtain ⟨texts, env, apis, hrun⟩ := C78_running _ _ _ _ _ hload ⟨.refl _, .refl _, .refl _, .refl _, .refl _⟩ running hstart
  have hw := (C76_accepted _ _).1 ⟨_, hload⟩
  obtain ⟨routes, h1, hk, h2, h3⟩ := C87_list_from_files service hlib _ hencode _ _ goInsertionSort_contract _ _ _ _ _ _ hrun hw RelatedFilesExample.plain_default (fun _ _ _ => .refl _)
    RelatedFilesExample.web (.head _) 0 (by decide) RelatedFilesExample.list (.head _) "/all".toList [] rfl
    (JsonFilesExample.good _ (by unfold PlainText; decide)) [] trivial (by simp) (by simp) JsonExample.parse RelatedFilesExample.asked RelatedFilesExample.tables
    (RelatedFilesExample.data hrun) (by simp [filteredValues, RelatedFilesExample.list]) RelatedFilesExample.fits
  refine ⟨routes, h1, ?_⟩
  match routes, hk, h2, h3 with
  | route :: rest, hk, h2, h3 =>
    obtain ⟨given, h4, h5, h6⟩ := h3 (RelatedFilesExample.request "/all" [("offset", [[49]]), ("limit", [[49]])])
      ⟨[], rest, rfl, (h2 _).2 ⟨rfl, [], trivial, rfl⟩, by simp⟩ ⟨by decide, by decide⟩
    match given, h4 with
    | [], _ =>
      obtain ⟨kept, hkept, h7⟩ := h6 _ rfl [] 1 1 trivial
        (.inr ⟨[49], by decide, (atoi_iff [49] 1).mp (by decide), by decide⟩) (.inr ⟨[49], by decide, (atoi_iff [49] 1).mp (by decide)⟩) (by decide)
      simp only [hkept.all_eq .nil] at h7
      obtain ⟨response, g1, g2, _, rows, g4, g5, g6⟩ := h7
      refine ⟨response, g1, g2, ?_⟩
      match rows, g4, g5, g6 with
      | [row], g4, _, g6 => exact ⟨row, g4, RelatedFilesExample.shown_row rfl (g6 0 (by decide) (by simp))⟩

/-- GET /one?n=1: the row 1,a, with the JSON object that has a at o.s. -/
example (service : ServiceLib) (hlib : RegexpContract service.find) (hencode : service.encode = encodeJson JsonExample.format) (parserLib : ParserLib) (c : Config)
    (hload : loadConfig ConfigExample.lib RelatedFilesExample.parsed = .ok c) (running)
    (hstart : start ((RelatedExample.startLib parserLib).onFiles RelatedFilesExample.machine) c = .ok running) :
    ∃ routes, mapGet running "web" = some ("application/json", routes) ∧ ∃ h : 1 < routes.length,
      FirstSuiting routes (RelatedFilesExample.request "/one" [("n", [[49]])]) routes[1] → ∃ response,
      clientGets (handleRequest service "application/json" routes (RelatedFilesExample.request "/one" [("n", [[49]])])) = some response ∧
        response.status = 200 ∧ ∃ row : GoMap Value, encodeJson JsonExample.format (.obj row) = .ok response.body ∧
          row.lookup "n" = some (.int 1) ∧ row.lookup "s" = some (.str [97]) ∧
          row.lookup "facts" = some (.arr [.obj [("o", .obj [("s", .str [97])]), ("n", .float (.fin 1))]]) := by
  obtain ⟨texts, env, apis, hrun⟩ := C78_running _ _ _ _ _ hload ⟨.refl _, .refl _, .refl _, .refl _, .refl _⟩ running hstart
  have hw := (C76_accepted _ _).1 ⟨_, hload⟩
  obtain ⟨routes, h1, hk, h2, h3⟩ := C87_object_from_files service hlib _ hencode _ _ goInsertionSort_contract _ _ _ _ _ _ hrun hw RelatedFilesExample.plain_default (fun _ _ _ => .refl _)
    RelatedFilesExample.web (.head _) 1 (by decide) RelatedFilesExample.one (.tail _ (.head _)) "/one".toList [] rfl
    (JsonFilesExample.good _ (by unfold PlainText; decide)) [] trivial (by simp) (by simp) JsonExample.parse RelatedFilesExample.asked RelatedFilesExample.tables
    (RelatedFilesExample.data hrun) (by simp [filteredValues, RelatedFilesExample.one, RelatedFilesExample.asked]) RelatedFilesExample.fits
  refine ⟨routes, h1, hk, fun hfirst => ?_⟩
  obtain ⟨given, h4, h5, h6⟩ := h3 _ hfirst ⟨by decide, by decide⟩
  match given, h4 with
  | [], _ =>
    obtain ⟨kept, hkept, response, g1, g2⟩ := h6 _ rfl [⟨"default", "n", .int 1⟩]
      ⟨rfl, rfl, ⟨_, (RelatedFilesExample.parser hrun).1, by simp only [Rodb.parse]; rfl⟩, trivial⟩
    simp only [hkept.all_eq (by decide)] at g2
    have hfilter : (RelatedFilesExample.tables RelatedFilesExample.one.input).find? (fun o => [(⟨"default", "n", .int 1⟩ : Condition)].all (fun c => hasValueAt o c.property c.value)) =
        some [("n", .int 1), ("s", .str [97])] := by
      simp only [List.all_cons, List.all_nil, Bool.and_true, hasValueAt_name (name := "n") (by decide)]
      rfl
    rw [hfilter] at g2
    obtain ⟨g2, _, row, g3, g4⟩ := g2
    exact ⟨response, g1, g2, row, g3, RelatedFilesExample.shown_row rfl g4⟩

end Rodb
