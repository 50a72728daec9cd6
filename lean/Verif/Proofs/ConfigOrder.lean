import Verif.Proofs.Config
/-
  Lemmas: validation and the order of the maps, panics, repetitions.
-/
namespace Rodb
open Spec

/-! ### Order -/

theorem validateMap_perm {α : Type} {f : String → α → Res α} {a b : GoMap α} (h : a.Perm b) : ∀ {a' : GoMap α}, validateMap f a = .ok a' →
    ∃ b', validateMap f b = .ok b' ∧ a'.Perm b' := by
  induction h with
  | nil => exact fun h => ⟨_, h, .refl _⟩
  | cons x _ ih =>
    intro a' ha
    simp only [validateMap, bind_ok, ok_inj] at ha
    obtain ⟨y, h1, r, h2, rfl⟩ := ha
    obtain ⟨r', h3, h4⟩ := ih h2
    exact ⟨(x.1, y) :: r', by simp only [validateMap, bind_ok, ok_inj]; exact ⟨y, h1, r', h3, rfl⟩, h4.cons _⟩
  | swap x y l =>
    intro a' ha
    simp only [validateMap, bind_ok, ok_inj] at ha
    obtain ⟨u, h1, r, ⟨v, h2, w, h3, rfl⟩, rfl⟩ := ha
    exact ⟨(x.1, v) :: (y.1, u) :: w, by simp only [validateMap, bind_ok, ok_inj]; exact ⟨v, h2, _, ⟨u, h1, w, h3, rfl⟩, rfl⟩, .swap _ _ _⟩
  | trans _ _ ih1 ih2 =>
    intro a' ha
    obtain ⟨b', h1, h2⟩ := ih1 ha
    obtain ⟨c', h3, h4⟩ := ih2 h1
    exact ⟨c', h3, h2.trans h4⟩

theorem ParserDecl.validate_congr {lib : ConfigLib} {a b : GoMap ParserDecl} (h : ∀ n, mapGet a n = mapGet b n) (p : ParserDecl) :
    p.validate lib a = p.validate lib b := by
  unfold ParserDecl.validate
  simp only [h]

mutual
theorem XmlPropDecl.validate_congr {lib : ConfigLib} {a b : GoMap ParserDecl} (h : ∀ n, mapGet a n = mapGet b n) {r : Bool} : ∀ (p : XmlPropDecl),
    p.validate lib a r = p.validate lib b r
  | .mk name type parser xpath items properties => by
    simp only [XmlPropDecl.validate, h, validateXmlItems_congr h items, validateXmlProperties_congr h [] properties]
theorem validateXmlItems_congr {lib : ConfigLib} {a b : GoMap ParserDecl} (h : ∀ n, mapGet a n = mapGet b n) : ∀ (p : Option XmlPropDecl),
    validateXmlItems lib a p = validateXmlItems lib b p
  | none => by simp only [validateXmlItems]
  | some p => by simp only [validateXmlItems, XmlPropDecl.validate_congr h p]
theorem validateXmlProperties_congr {lib : ConfigLib} {a b : GoMap ParserDecl} (h : ∀ n, mapGet a n = mapGet b n) : ∀ (seen : List String) (p : List XmlPropDecl),
    validateXmlProperties lib a seen p = validateXmlProperties lib b seen p
  | _, [] => by simp only [validateXmlProperties]
  | seen, p :: rest => by
    simp only [validateXmlProperties, XmlPropDecl.validate_congr h p]
    congr 1; funext q
    rw [validateXmlProperties_congr h (q.name :: seen) rest]
end

theorem InputDecl.validate_congr {lib : ConfigLib} {a b : GoMap ParserDecl} (h : ∀ n, mapGet a n = mapGet b n) (i : InputDecl) :
    i.validate lib a = i.validate lib b := by
  cases i with
  | csv c =>
    have e : ColumnDecl.validate a = ColumnDecl.validate b := by funext c; simp only [ColumnDecl.validate, h]
    simp only [InputDecl.validate, CsvDecl.validate, e]
  | xml c => simp only [InputDecl.validate, XmlDecl.validate, validateXmlProperties_congr h]
  | json c => rfl

theorem IndexDecl.validate_congr {lib : ConfigLib} {a b : GoMap InputDecl} (h : ∀ n, mapGet a n = mapGet b n) (i : IndexDecl) :
    i.validate lib a = i.validate lib b := by
  cases i <;> simp only [IndexDecl.validate, MapDecl.validate, WildcardDecl.validate, SqliteDecl.validate, Fts5Decl.validate, h]

theorem ServiceDecl.validate_congr {lib : ConfigLib} {a b : GoMap OutputDecl} (h : ∀ n, mapGet a n = mapGet b n) (s : ServiceDecl) :
    s.validate lib a = s.validate lib b := by
  have e : RouteDecl.validate a = RouteDecl.validate b := by funext c; simp only [RouteDecl.validate, h]
  simp only [ServiceDecl.validate, e]

mutual
theorem Relationship.validate_congr {i j : GoMap IndexDecl} {a b : GoMap InputDecl} (hi : ∀ n, mapGet i n = mapGet j n) (h : ∀ n, mapGet a n = mapGet b n) :
    ∀ (r : Relationship), r.validate i a = r.validate j b
  | .mk inputName isArray limit sort matching relationships => by
    have e : MatchConfig.validate i = MatchConfig.validate j := by funext _ c; simp only [MatchConfig.validate, checkIndex, hi]
    simp only [Relationship.validate, validateLevel, h, e, validateRelationships_congr hi h relationships]
theorem validateRelationships_congr {i j : GoMap IndexDecl} {a b : GoMap InputDecl} (hi : ∀ n, mapGet i n = mapGet j n) (h : ∀ n, mapGet a n = mapGet b n) :
    ∀ (l : List (String × Relationship)), validateRelationships i a l = validateRelationships j b l
  | [] => by simp only [validateRelationships]
  | (n, r) :: rest => by simp only [validateRelationships, Relationship.validate_congr hi h r, validateRelationships_congr hi h rest]
end

theorem OutputDecl.validate_congr {a b : GoMap InputDecl} {i j : GoMap IndexDecl} {p q : GoMap ParserDecl} (h : ∀ n, mapGet a n = mapGet b n)
    (hi : ∀ n, mapGet i n = mapGet j n) (hp : ∀ n, mapGet p n = mapGet q n) (o : OutputDecl) : o.validate a i p = o.validate b j q := by
  have e : ParamConfig.validate i p = ParamConfig.validate j q := by funext _ c; simp only [ParamConfig.validate, checkIndex, hi, hp]
  cases o with
  | graphql n => rfl
  | array n c =>
    have e' : validateArrayParameter i p = validateArrayParameter j q := by funext _ _ _ _ c; simp only [validateArrayParameter, e]
    simp only [OutputDecl.validate, ArrayConfig.validate, h, e', validateRelationships_congr hi h]
  | object n c =>
    simp only [OutputDecl.validate, ObjectConfig.validate, h, e, validateRelationships_congr hi h]

/-- Validation gives the same result, in the other order. -/
theorem validate_reordered {lib : ConfigLib} {a b a' : Config} (h : Reordered a b) (h1 : (a.parsers.map (·.1)).Nodup) (h2 : (a.inputs.map (·.1)).Nodup)
    (h3 : (a.indexes.map (·.1)).Nodup) (h5 : (a.outputs.map (·.1)).Nodup) (ha : a.validate lib = .ok a') :
    ∃ b', b.validate lib = .ok b' ∧ Reordered a' b' := by
  simp only [Config.validate, bind_ok, ok_inj] at ha
  obtain ⟨parsers, p1, inputs, p2, indexes, p3, services, p4, outputs, p5, rfl⟩ := ha
  have e1 := mapGet_perm h.parsers h1
  have e2 := mapGet_perm h.inputs h2
  have e3 := mapGet_perm h.indexes h3
  have e5 := mapGet_perm h.outputs h5
  obtain ⟨parsers', q1, r1⟩ := validateMap_perm h.parsers p1
  obtain ⟨inputs', q2, r2⟩ := validateMap_perm h.inputs p2
  obtain ⟨indexes', q3, r3⟩ := validateMap_perm h.indexes p3
  obtain ⟨services', q4, r4⟩ := validateMap_perm h.services p4
  obtain ⟨outputs', q5, r5⟩ := validateMap_perm h.outputs p5
  refine ⟨{ parsers := parsers', inputs := inputs', indexes := indexes', services := services', outputs := outputs' }, ?_, ⟨r1, r2, r3, r4, r5⟩⟩
  simp only [Config.validate, bind_ok, ok_inj]
  refine ⟨parsers', ?_, inputs', ?_, indexes', ?_, services', ?_, outputs', ?_, rfl⟩
  · rw [← q1]; congr 1; funext _ x; exact (ParserDecl.validate_congr e1 x).symm
  · rw [← q2]; congr 1; funext _ x; exact (InputDecl.validate_congr e1 x).symm
  · rw [← q3]; congr 1; funext _ x; exact (IndexDecl.validate_congr e2 x).symm
  · rw [← q4]; congr 1; funext _ x; exact (ServiceDecl.validate_congr e5 x).symm
  · rw [← q5]; congr 1; funext _ x; exact (OutputDecl.validate_congr e2 e3 e1 x).symm

/-! ### Panics -/

/-- The result is not a panic, nor an endless execution. -/
def Calm {α : Type} (x : Res α) : Prop := ∀ e, x = .error e → ∃ m, e = .err m

theorem calm_ok {α : Type} (a : α) : Calm (.ok a : Res α) := fun _ h => (by cases h)
theorem calm_err {α : Type} (m : String) : Calm (.error (.err m) : Res α) := fun _ h => (by cases h; exact ⟨m, rfl⟩)
theorem calm_bind {α β : Type} {x : Res α} {f : α → Res β} (h1 : Calm x) (h2 : ∀ a, Calm (f a)) : Calm (x >>= f) := by
  intro e h
  cases x with
  | error e' => cases h; exact h1 _ rfl
  | ok a => exact h2 a e h
theorem calm_require (c : Bool) (m : String) : Calm (require c m) := by
  cases c
  · exact calm_err m
  · exact calm_ok ()
theorem calm_ite {α : Type} {p : Prop} [Decidable p] {x y : Res α} (h1 : Calm x) (h2 : Calm y) : Calm (if p then x else y) := by
  split
  · exact h1
  · exact h2
theorem calm_checkFile {lib : ConfigLib} {path : String} (h : lib.stat path ≠ .failed) : Calm (checkFile lib path) := by
  unfold checkFile
  cases hs : lib.stat path with
  | absent => exact calm_err _
  | failed => exact (h hs).elim
  | directory => exact calm_err _
  | file => exact calm_ok _
theorem calm_validateList {α : Type} {f : α → Res α} (h : ∀ x, Calm (f x)) (name : α → String) (message : String) : ∀ (l : List α) (seen : List String),
    Calm (validateList f name message seen l)
  | [], _ => calm_ok _
  | x :: rest, _ => calm_bind (h x) (fun _ => calm_bind (calm_require _ _) (fun _ => calm_bind (calm_validateList h name message rest _) (fun _ => calm_ok _)))
theorem calm_validateMap {α : Type} {f : String → α → Res α} (h : ∀ k x, Calm (f k x)) : ∀ (l : GoMap α), Calm (validateMap f l)
  | [] => calm_ok _
  | (k, x) :: rest => calm_bind (h k x) (fun _ => calm_bind (calm_validateMap h rest) (fun _ => calm_ok _))
theorem calm_validateMap_mem {α : Type} {f : String → α → Res α} : ∀ {l : GoMap α}, (∀ k x, (k, x) ∈ l → Calm (f k x)) → Calm (validateMap f l)
  | [], _ => calm_ok _
  | (k, x) :: _, h => calm_bind (h k x (.head _)) (fun _ => calm_bind (calm_validateMap_mem (fun k x hx => h k x (.tail _ hx))) (fun _ => calm_ok _))
theorem calm_collect {α : Type} (name : α → String) : ∀ (l : List α) (m : GoMap α), Calm (collect name l m)
  | [], _ => calm_ok _
  | x :: rest, m => by
    unfold collect
    cases mapGet m (name x) with
    | some _ => exact calm_err _
    | none => exact calm_collect name rest _

theorem ParserDecl.calm (lib : ConfigLib) (ps : GoMap ParserDecl) (p : ParserDecl) : Calm (p.validate lib ps) := by
  unfold ParserDecl.validate
  refine calm_bind (calm_require _ _) (fun _ => ?_)
  split
  · exact calm_ok _
  · exact calm_ok _
  · exact calm_bind (calm_require _ _) (fun _ => calm_ok _)
  · exact calm_bind (calm_require _ _) (fun _ => calm_bind (calm_require _ _) (fun _ => calm_ok _))
  · exact calm_ok _
  · split
    · exact calm_err _
    · exact calm_bind (calm_require _ _) (fun _ => calm_bind (calm_require _ _) (fun _ => calm_ok _))

mutual
theorem XmlPropDecl.calm (lib : ConfigLib) (ps : GoMap ParserDecl) (r : Bool) : ∀ (p : XmlPropDecl), Calm (p.validate lib ps r)
  | .mk name type parser xpath items properties => by
    simp only [XmlPropDecl.validate]
    refine calm_bind (calm_require _ _) (fun _ => calm_bind (calm_require _ _) (fun _ => calm_ite ?_ (calm_ite ?_ (calm_ite ?_ (calm_err _)))))
    · exact calm_bind (calm_require _ _) (fun _ => calm_bind (calm_require _ _) (fun _ => calm_bind (calm_require _ _) (fun _ => calm_ok _)))
    · exact calm_bind (calm_require _ _) (fun _ => calm_bind (calm_require _ _) (fun _ => calm_bind (calm_xmlItems lib ps items) (fun _ => calm_ok _)))
    · exact calm_bind (calm_require _ _) (fun _ => calm_bind (calm_require _ _) (fun _ => calm_bind (calm_require _ _)
        (fun _ => calm_bind (calm_xmlProperties lib ps properties _) (fun _ => calm_ok _))))
theorem calm_xmlItems (lib : ConfigLib) (ps : GoMap ParserDecl) : ∀ (p : Option XmlPropDecl), Calm (validateXmlItems lib ps p)
  | none => by simp only [validateXmlItems]; exact calm_err _
  | some p => by simp only [validateXmlItems]; exact calm_bind (XmlPropDecl.calm lib ps false p) (fun _ => calm_ok _)
theorem calm_xmlProperties (lib : ConfigLib) (ps : GoMap ParserDecl) : ∀ (p : List XmlPropDecl) (seen : List String), Calm (validateXmlProperties lib ps seen p)
  | [], _ => by simp only [validateXmlProperties]; exact calm_ok _
  | p :: rest, seen => by
    simp only [validateXmlProperties]
    exact calm_bind (XmlPropDecl.calm lib ps true p) (fun _ => calm_bind (calm_require _ _) (fun _ => calm_bind (calm_xmlProperties lib ps rest _) (fun _ => calm_ok _)))
end

theorem InputDecl.calm {lib : ConfigLib} {i : InputDecl} (h : lib.stat (dataFile i) ≠ .failed) (ps : GoMap ParserDecl) : Calm (i.validate lib ps) := by
  cases i with
  | csv c =>
    refine calm_bind ?_ (fun _ => calm_ok _)
    unfold CsvDecl.validate
    refine calm_bind (calm_require _ _) (fun _ => ?_)
    refine calm_ite ?_ ?_ <;> refine calm_bind (calm_require _ _) (fun _ => calm_bind (calm_checkFile h) (fun _ => calm_bind (calm_require _ _) (fun _ =>
      calm_bind (calm_validateList (fun x => ?_) _ _ _ _) (fun _ => calm_ok _)))) <;>
    exact calm_bind (calm_require _ _) (fun _ => calm_bind (calm_require _ _) (fun _ => calm_ok _))
  | xml c =>
    exact calm_bind (calm_bind (calm_require _ _) (fun _ => calm_bind (calm_require _ _) (fun _ => calm_bind (calm_require _ _) (fun _ =>
      calm_bind (calm_checkFile h) (fun _ => calm_bind (calm_xmlProperties lib ps _ _) (fun _ => calm_ok _)))))) (fun _ => calm_ok _)
  | json c => exact calm_bind (calm_bind (calm_require _ _) (fun _ => calm_bind (calm_checkFile h) (fun _ => calm_ok _))) (fun _ => calm_ok _)

theorem IndexDecl.calm (lib : ConfigLib) (is : GoMap InputDecl) (i : IndexDecl) : Calm (i.validate lib is) := by
  cases i with
  | map c =>
    exact calm_bind (calm_bind (calm_require _ _) (fun _ => calm_bind (calm_require _ _) (fun _ => calm_bind (calm_validateList calm_ok _ _ _ _)
      (fun _ => calm_ok _)))) (fun _ => calm_ok _)
  | wildcard c =>
    exact calm_bind (calm_bind (calm_require _ _) (fun _ => calm_bind (calm_require _ _) (fun _ => calm_bind (calm_require _ _) (fun _ =>
      calm_bind (calm_require _ _) (fun _ => calm_bind (calm_require _ _) (fun _ => calm_bind (calm_validateList calm_ok _ _ _ _)
      (fun _ => calm_ok _))))))) (fun _ => calm_ok _)
  | sqlite c =>
    exact calm_bind (calm_bind (calm_require _ _) (fun _ => calm_bind (calm_require _ _) (fun _ => calm_bind (calm_require _ _) (fun _ =>
      calm_bind (calm_validateList (fun _ => calm_bind (calm_require _ _) (fun _ => calm_bind (calm_require _ _) (fun _ => calm_ok _))) _ _ _ _)
      (fun _ => calm_ok _))))) (fun _ => calm_ok _)
  | fts5 c =>
    exact calm_bind (calm_bind (calm_require _ _) (fun _ => calm_bind (calm_require _ _) (fun _ => calm_bind (calm_require _ _) (fun _ =>
      calm_bind (calm_validateList calm_ok _ _ _ _) (fun _ => calm_ok _))))) (fun _ => calm_ok _)
  | noop n => exact calm_bind (calm_require _ _) (fun _ => calm_ok _)

theorem calm_checkIndex (indexes : GoMap IndexDecl) (input : InputDecl) (index property : String) : Calm (checkIndex indexes input index property) := by
  unfold checkIndex
  split
  · exact calm_err _
  · exact calm_bind (calm_require _ _) (fun _ => calm_require _ _)

theorem ParamConfig.calm (indexes : GoMap IndexDecl) (ps : GoMap ParserDecl) (input : InputDecl) (p : ParamConfig) : Calm (p.validate indexes ps input) := by
  unfold ParamConfig.validate
  refine calm_bind (calm_require _ _) (fun _ => calm_bind (calm_checkIndex _ _ _ _) (fun _ => ?_))
  split
  · exact calm_err _
  · exact calm_bind (calm_require _ _) (fun _ => calm_ok _)

theorem calm_validateLevel (indexes : GoMap IndexDecl) (is : GoMap InputDecl) (inputName : String) (isArray : Bool) (sort : List SortConfig)
    (matching : List MatchConfig) : Calm (validateLevel indexes is inputName isArray sort matching) := by
  unfold validateLevel
  refine calm_bind (calm_require _ _) (fun _ => ?_)
  split
  · exact calm_err _
  · exact calm_bind (calm_validateList (fun _ => calm_ok _) _ _ _ _) (fun _ => calm_bind (calm_require _ _) (fun _ =>
      calm_bind (calm_validateList (fun _ => calm_bind (calm_checkIndex _ _ _ _) (fun _ => calm_ok _)) _ _ _ _) (fun _ => calm_ok _)))

mutual
theorem Relationship.calm (indexes : GoMap IndexDecl) (is : GoMap InputDecl) : ∀ (r : Relationship), Calm (r.validate indexes is)
  | .mk inputName isArray limit sort matching relationships => by
    simp only [Relationship.validate]
    exact calm_bind (calm_validateLevel _ _ _ _ _ _) (fun _ => calm_bind (calm_relationships indexes is relationships) (fun _ => calm_ok _))
theorem calm_relationships (indexes : GoMap IndexDecl) (is : GoMap InputDecl) : ∀ (l : List (String × Relationship)), Calm (validateRelationships indexes is l)
  | [] => by simp only [validateRelationships]; exact calm_ok _
  | (n, r) :: rest => by
    simp only [validateRelationships]
    exact calm_bind (Relationship.calm indexes is r) (fun _ => calm_bind (calm_relationships indexes is rest) (fun _ => calm_ok _))
end

theorem OutputDecl.calm (is : GoMap InputDecl) (indexes : GoMap IndexDecl) (ps : GoMap ParserDecl) (o : OutputDecl) : Calm (o.validate is indexes ps) := by
  cases o with
  | graphql n => exact calm_bind (calm_require _ _) (fun _ => calm_ok _)
  | array n c =>
    refine calm_bind ?_ (fun _ => calm_ok _)
    unfold ArrayConfig.validate
    refine calm_bind (calm_require _ _) (fun _ => calm_bind (calm_require _ _) (fun _ => ?_))
    split
    · exact calm_err _
    · split
      · exact calm_err _
      · exact calm_bind (calm_validateMap (fun _ _ => calm_bind (ParamConfig.calm _ _ _ _) (fun _ => calm_bind (calm_require _ _) (fun _ =>
          calm_bind (calm_require _ _) (fun _ => calm_ok _)))) _) (fun _ => calm_bind (calm_relationships _ _ _) (fun _ => calm_ok _))
  | object n c =>
    refine calm_bind ?_ (fun _ => calm_ok _)
    unfold ObjectConfig.validate
    refine calm_bind (calm_require _ _) (fun _ => calm_bind (calm_require _ _) (fun _ => calm_bind (calm_require _ _) (fun _ => ?_)))
    split
    · exact calm_err _
    · exact calm_bind (calm_validateMap (fun _ _ => ParamConfig.calm _ _ _ _) _) (fun _ => calm_bind (calm_relationships _ _ _) (fun _ => calm_ok _))

theorem calm_https {lib : ConfigLib} : ∀ {https : Option HttpsDecl}, (∀ f ∈ httpsFiles https, lib.stat f ≠ .failed) → Calm (validateHttps lib https)
  | none, _ => calm_ok _
  | some _, h =>
    calm_bind (calm_bind (calm_require _ _) (fun _ => calm_bind (calm_checkFile (h _ (.head _))) (fun _ => calm_bind (calm_require _ _) (fun _ =>
      calm_bind (calm_checkFile (h _ (.tail _ (.head _)))) (fun _ => calm_ok _))))) (fun _ => calm_ok _)

theorem ServiceDecl.calm {lib : ConfigLib} {s : ServiceDecl} (h : ∀ f ∈ httpsFiles s.https, lib.stat f ≠ .failed) (os : GoMap OutputDecl) : Calm (s.validate lib os) := by
  unfold ServiceDecl.validate
  exact calm_bind (calm_require _ _) (fun _ => calm_bind (calm_require _ _) (fun _ => calm_bind (calm_https h) (fun _ => calm_bind (calm_require _ _) (fun _ =>
    calm_bind (calm_validateList (fun _ => calm_bind (calm_require _ _) (fun _ => calm_bind (calm_require _ _) (fun _ => calm_bind (calm_require _ _)
      (fun _ => calm_ok _)))) _ _ _ _) (fun _ => calm_bind (calm_require _ _) (fun _ => calm_ok _))))))

theorem newConfig_mem {p : ParsedConfig} {c : Config} (h : newConfig p = .ok c) : (∀ e ∈ c.inputs, e.2 ∈ p.inputs) ∧ (∀ e ∈ c.services, e.2 ∈ p.services) := by
  have val : ∀ {α : Type} (name : α → String) (l : List α) m', collect name l [] = .ok m' → ∀ e ∈ m', e.2 ∈ l := by
    intro α name l m' h e he
    rw [(collectNames_ok (name := name) (l := l) (m := [])).1 m' h] at he
    simp only [List.nil_append, List.mem_map] at he
    obtain ⟨x, hx, rfl⟩ := he
    exact hx
  simp only [newConfig, bind_ok, ok_inj] at h
  obtain ⟨_, _, _, h2, _, _, _, h4, _, _, rfl⟩ := h
  exact ⟨val _ _ _ h2, val _ _ _ h4⟩

theorem loadConfig_calm {lib : ConfigLib} {p : ParsedConfig} (h : ∀ f ∈ filesOf p, lib.stat f ≠ .failed) : Calm (loadConfig lib p) := by
  have hnew : Calm (newConfig p) :=
    calm_bind (calm_collect _ _ _) (fun _ => calm_bind (calm_collect _ _ _) (fun _ => calm_bind (calm_collect _ _ _) (fun _ =>
      calm_bind (calm_collect _ _ _) (fun _ => calm_bind (calm_collect _ _ _) (fun _ => calm_ok _)))))
  cases hc : newConfig p with
  | error e => simp only [loadConfig, hc]; intro e' he; cases he; exact hnew _ hc
  | ok c =>
    obtain ⟨hi, hs⟩ := newConfig_mem hc
    simp only [loadConfig, hc]
    show Calm ((addDefaults c).validate lib)
    refine calm_bind (calm_validateMap (fun _ _ => ParserDecl.calm _ _ _) _) (fun _ => calm_bind (calm_validateMap_mem (fun k x hx => InputDecl.calm (h _ ?_) _) ) (fun _ =>
      calm_bind (calm_validateMap (fun _ _ => IndexDecl.calm _ _ _) _) (fun _ => calm_bind (calm_validateMap_mem (fun k x hx => ServiceDecl.calm (fun f hf => h _ ?_) _)) (fun _ =>
      calm_bind (calm_validateMap (fun _ _ => OutputDecl.calm _ _ _ _) _) (fun _ => calm_ok _)))))
    · exact List.mem_append_left _ (List.mem_map_of_mem (f := dataFile) (hi _ hx))
    · exact List.mem_append_right _ (List.mem_flatMap.2 ⟨x, hs _ hx, hf⟩)

/-! ### Repetitions -/

mutual
theorem XmlPropDecl.validate_names {lib : ConfigLib} {ps : GoMap ParserDecl} {b : Bool} : ∀ {p q : XmlPropDecl}, p.validate lib ps b = .ok q →
    ∀ name type parser xpath items properties, .mk name type parser xpath items properties ∈ xmlWithNested q → (namesOfXml properties).Nodup
  | .mk name type parser xpath items properties, q, h => by
    simp only [XmlPropDecl.validate, bind_ok, require_ok, exists_const] at h
    obtain ⟨_, _, h⟩ := h
    generalize (if type = "" then "primitive" else type) = t at h
    intro name' type' parser' xpath' items' properties' hq
    split at h
    · simp only [bind_ok, require_ok, exists_const, ok_inj, Option.isNone_iff_eq_none, List.isEmpty_iff] at h
      obtain ⟨h1, h2, h3, rfl⟩ := h
      subst h2 h3
      simp only [xmlWithNested, xmlItems, xmlAll, List.append_nil, List.mem_singleton, XmlPropDecl.mk.injEq] at hq
      rw [hq.2.2.2.2.2]; exact .nil
    · split at h
      · simp only [bind_ok, require_ok, exists_const, ok_inj, List.isEmpty_iff] at h
        obtain ⟨_, h1, items2, h2, rfl⟩ := h
        subst h1
        simp only [xmlWithNested, xmlAll, List.append_nil, List.mem_cons, XmlPropDecl.mk.injEq] at hq
        rcases hq with hq | hq
        · rw [hq.2.2.2.2.2]; exact .nil
        · exact validateXmlItems_names h2 _ _ _ _ _ _ hq
      · split at h
        · simp only [bind_ok, require_ok, exists_const, ok_inj, Option.isNone_iff_eq_none] at h
          obtain ⟨_, h1, _, properties2, h2, rfl⟩ := h
          subst h1
          simp only [xmlWithNested, xmlItems, List.nil_append, List.mem_cons, XmlPropDecl.mk.injEq] at hq
          rcases hq with hq | hq
          · rw [hq.2.2.2.2.2]; exact (validateXmlProperties_names h2).1
          · exact (validateXmlProperties_names h2).2.2 _ _ _ _ _ _ hq
        · cases h
theorem validateXmlItems_names {lib : ConfigLib} {ps : GoMap ParserDecl} : ∀ {i j : Option XmlPropDecl}, validateXmlItems lib ps i = .ok j →
    ∀ name type parser xpath items properties, .mk name type parser xpath items properties ∈ xmlItems j → (namesOfXml properties).Nodup
  | none, j, h => by simp [validateXmlItems] at h
  | some p, j, h => by
    simp only [validateXmlItems, bind_ok, ok_inj] at h
    obtain ⟨q, hq, rfl⟩ := h
    exact XmlPropDecl.validate_names hq
theorem validateXmlProperties_names {lib : ConfigLib} {ps : GoMap ParserDecl} : ∀ {seen : List String} {l l' : List XmlPropDecl},
    validateXmlProperties lib ps seen l = .ok l' → (namesOfXml l').Nodup ∧ (∀ n ∈ namesOfXml l', n ∉ seen) ∧
    ∀ name type parser xpath items properties, .mk name type parser xpath items properties ∈ xmlAll l' → (namesOfXml properties).Nodup
  | _, [], _, h => by
    simp only [validateXmlProperties, ok_inj] at h
    subst h
    exact ⟨.nil, by simp [namesOfXml], by simp [xmlAll]⟩
  | seen, p :: rest, _, h => by
    simp only [validateXmlProperties, bind_ok, require_ok, exists_const, ok_inj] at h
    obtain ⟨q, hq, hs, r, hr, rfl⟩ := h
    obtain ⟨h1, h2, h3⟩ := validateXmlProperties_names hr
    simp only [Bool.not_eq_true', List.contains_eq_mem, decide_eq_false_iff_not] at hs
    refine ⟨?_, ?_, ?_⟩
    · simp only [namesOfXml, List.map_cons, List.nodup_cons]
      exact ⟨fun hm => h2 _ hm List.mem_cons_self, h1⟩
    · intro n hn
      simp only [namesOfXml, List.map_cons, List.mem_cons] at hn
      rcases hn with rfl | hn
      · exact hs
      · exact fun hm => h2 n hn (List.mem_cons_of_mem _ hm)
    · intro _ _ _ _ _ _ hm
      simp only [xmlAll, List.mem_append] at hm
      rcases hm with hm | hm
      · exact XmlPropDecl.validate_names hq _ _ _ _ _ _ hm
      · exact h3 _ _ _ _ _ _ hm
end

theorem validateLevel_names {indexes : GoMap IndexDecl} {is : GoMap InputDecl} {inputName : String} {isArray : Bool} {sort sort' : List SortConfig}
    {matching matching' : List MatchConfig} (h : validateLevel indexes is inputName isArray sort matching = .ok (sort', matching')) :
    (sort'.map SortConfig.property).Nodup ∧ (matching'.map MatchConfig.childProperty).Nodup := by
  simp only [validateLevel, bind_ok, require_ok, exists_const] at h
  obtain ⟨h0, h⟩ := h
  cases hi : mapGet is inputName with
  | none => rw [hi] at h; cases h
  | some input =>
    rw [hi] at h
    simp only [bind_ok, require_ok, exists_const, ok_inj, Prod.mk.injEq] at h
    obtain ⟨sort1, h1, hm, matching1, h2, rfl, rfl⟩ := h
    exact ⟨(validateList_names h1).1, (validateList_names h2).1⟩

mutual
theorem Relationship.validate_names {indexes : GoMap IndexDecl} {is : GoMap InputDecl} : ∀ {p q : Relationship}, p.validate indexes is = .ok q →
    ∀ r ∈ relationshipWithNested q, ((sortOfRelationship r).map SortConfig.property).Nodup ∧ ((matchesOfRelationship r).map MatchConfig.childProperty).Nodup
  | .mk inputName isArray limit sort matching relationships, q, h, r, hm => by
    simp only [Relationship.validate, bind_ok, ok_inj] at h
    obtain ⟨⟨sort', matching'⟩, h1, rs, h2, rfl⟩ := h
    simp only [relationshipWithNested, List.mem_cons] at hm
    rcases hm with rfl | hm
    · exact validateLevel_names h1
    · exact validateRelationships_names h2 r hm
theorem validateRelationships_names {indexes : GoMap IndexDecl} {is : GoMap InputDecl} : ∀ {l l' : List (String × Relationship)},
    validateRelationships indexes is l = .ok l' → ∀ r ∈ relationshipsAll l',
    ((sortOfRelationship r).map SortConfig.property).Nodup ∧ ((matchesOfRelationship r).map MatchConfig.childProperty).Nodup
  | [], _, h, r, hm => by
    simp only [validateRelationships, ok_inj] at h
    subst h
    simp [relationshipsAll] at hm
  | (name, p) :: rest, _, h, r, hm => by
    simp only [validateRelationships, bind_ok, ok_inj] at h
    obtain ⟨q, h1, rest', h2, rfl⟩ := h
    simp only [relationshipsAll, List.mem_append] at hm
    rcases hm with hm | hm
    · exact Relationship.validate_names h1 r hm
    · exact validateRelationships_names h2 r hm
end

theorem loadConfig_noRepetition {lib : ConfigLib} {p : ParsedConfig} {c : Config} (h : loadConfig lib p = .ok c) : NoRepetition c := by
  simp only [loadConfig, bind_ok] at h
  obtain ⟨c0, _, h⟩ := h
  generalize addDefaults c0 = c1 at h
  simp only [Config.validate, bind_ok, ok_inj] at h
  obtain ⟨parsers, h1, inputs, h2, indexes, h3, services, h4, outputs, h5, rfl⟩ := h
  constructor
  · intro n d hd
    obtain ⟨x, _, hx⟩ := validateMap_mem h2 hd
    exact ((InputDecl.validate_ok hx).2.2.1 d rfl).2
  · intro n d hd
    obtain ⟨x, _, hx⟩ := validateMap_mem h2 hd
    cases x with
    | csv c =>
      simp only [InputDecl.validate, bind_ok, ok_inj] at hx
      obtain ⟨_, _, hx⟩ := hx; cases hx
    | json c =>
      simp only [InputDecl.validate, bind_ok, ok_inj] at hx
      obtain ⟨_, _, hx⟩ := hx; cases hx
    | xml c =>
      simp only [InputDecl.validate, XmlDecl.validate, bind_ok, ok_inj] at hx
      obtain ⟨_, ⟨_, _, _, _, _, _, _, _, properties, h6, rfl⟩, hx⟩ := hx
      cases hx
      exact ⟨(validateXmlProperties_names h6).1, (validateXmlProperties_names h6).2.2⟩
  · intro n d hd
    obtain ⟨x, _, hx⟩ := validateMap_mem h3 hd
    cases x <;> simp only [IndexDecl.validate, MapDecl.validate, bind_ok, require_ok, exists_const, ok_inj] at hx
    · obtain ⟨_, ⟨_, _, l, hl, rfl⟩, hx⟩ := hx
      cases hx
      simpa using (validateList_names hl).1
    all_goals
      first
      | (obtain ⟨_, _, hx⟩ := hx; cases hx)
      | cases hx.2
  · intro n d hd
    obtain ⟨x, _, hx⟩ := validateMap_mem h3 hd
    cases x <;> simp only [IndexDecl.validate, WildcardDecl.validate, bind_ok, require_ok, exists_const, ok_inj] at hx
    case wildcard =>
      obtain ⟨_, ⟨_, _, _, _, _, l, hl, rfl⟩, hx⟩ := hx
      cases hx
      simpa using (validateList_names hl).1
    all_goals
      first
      | (obtain ⟨_, _, hx⟩ := hx; cases hx)
      | cases hx.2
  · intro n d hd
    obtain ⟨x, _, hx⟩ := validateMap_mem h3 hd
    cases x <;> simp only [IndexDecl.validate, SqliteDecl.validate, bind_ok, require_ok, exists_const, ok_inj] at hx
    case sqlite =>
      obtain ⟨_, ⟨_, _, _, l, hl, rfl⟩, hx⟩ := hx
      cases hx
      exact (validateList_names hl).1
    all_goals
      first
      | (obtain ⟨_, _, hx⟩ := hx; cases hx)
      | cases hx.2
  · intro n d hd
    obtain ⟨x, _, hx⟩ := validateMap_mem h3 hd
    cases x <;> simp only [IndexDecl.validate, Fts5Decl.validate, bind_ok, require_ok, exists_const, ok_inj] at hx
    case fts5 =>
      obtain ⟨_, ⟨_, _, _, l, hl, rfl⟩, hx⟩ := hx
      cases hx
      simpa using (validateList_names hl).1
    all_goals
      first
      | (obtain ⟨_, _, hx⟩ := hx; cases hx)
      | cases hx.2
  · intro n o ho r hr
    obtain ⟨x, _, hx⟩ := validateMap_mem h5 ho
    cases x with
    | graphql m =>
      simp only [OutputDecl.validate, bind_ok, require_ok, exists_const, ok_inj] at hx
      rw [← hx.2] at hr
      simp [relationshipsOfOutput, relationshipsAll] at hr
    | array m d =>
      simp only [OutputDecl.validate, ArrayConfig.validate, bind_ok, require_ok, exists_const, ok_inj] at hx
      obtain ⟨d', ⟨_, _, hx⟩, rfl⟩ := hx
      split at hx
      · cases hx
      · split at hx
        · cases hx
        · simp only [bind_ok, ok_inj] at hx
          obtain ⟨_, _, rs, h6, rfl⟩ := hx
          exact validateRelationships_names h6 r hr
    | object m d =>
      simp only [OutputDecl.validate, ObjectConfig.validate, bind_ok, require_ok, exists_const, ok_inj] at hx
      obtain ⟨d', ⟨_, _, _, hx⟩, rfl⟩ := hx
      split at hx
      · cases hx
      · simp only [bind_ok, ok_inj] at hx
        obtain ⟨_, _, rs, h6, rfl⟩ := hx
        exact validateRelationships_names h6 r hr
  · intro n s hs
    obtain ⟨x, _, hx⟩ := validateMap_mem h4 hs
    exact (ServiceDecl.validate_ok hx).2.2.2.2.2.2.1

end Rodb
