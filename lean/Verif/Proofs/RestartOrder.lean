import Verif.Proofs.Restart
import Verif.Model.Inputs
/-
  The inputs of the program do not depend on the order in which the maps of the configuration are visited.
-/
namespace Rodb
open Rodb.Spec

theorem instantiateMap_perm {α β : Type} {f : α → Res β} {l l' : GoMap α} (h : l.Perm l') : ∀ {m : GoMap β}, instantiateMap f l = .ok m → ∃ m', instantiateMap f l' = .ok m' ∧ m.Perm m' := by
  induction h with
  | nil => intro m h; exact ⟨m, h, .refl _⟩
  | cons x _ ih =>
    intro m h
    obtain ⟨k, x⟩ := x
    simp only [instantiateMap, bind_ok, ok_inj] at h
    obtain ⟨y, h1, r, h2, rfl⟩ := h
    obtain ⟨r', h3, h4⟩ := ih h2
    exact ⟨(k, y) :: r', by simp [instantiateMap, bind_ok, h1, h3], h4.cons _⟩
  | swap x y l =>
    intro m h
    obtain ⟨k, x⟩ := x
    obtain ⟨k', x'⟩ := y
    simp only [instantiateMap, bind_ok, ok_inj] at h
    obtain ⟨y, h1, _, ⟨y', h2, r, h3, rfl⟩, rfl⟩ := h
    exact ⟨(k, y') :: (k', y) :: r, by simp [instantiateMap, bind_ok, h1, h2, h3], .swap _ _ _⟩
  | trans _ _ ih1 ih2 =>
    intro m h
    obtain ⟨m1, h1, p1⟩ := ih1 h
    obtain ⟨m2, h2, p2⟩ := ih2 h1
    exact ⟨m2, h2, p1.trans p2⟩

theorem parse_congr (lib : ParserLib) {a b : GoMap ParserConfig} (h : ∀ n, mapGet a n = mapGet b n) : ∀ (fuel : Nat) (c : ParserConfig), parse lib a fuel c = parse lib b fuel c := by
  intro fuel
  induction fuel with
  | zero => intro c; cases c <;> (funext v; simp only [parse])
  | succ fuel ih =>
    intro c
    cases c <;> (funext v; simp only [parse, h])
    simp only [ih]

theorem parseFunctions_congr (lib : StartLib) {a b : GoMap TextParser} (h : a.Perm b) (hn : (a.map (·.1)).Nodup) (n : String) :
    mapGet (parseFunctions lib a) n = mapGet (parseFunctions lib b) n := by
  have e := mapGet_perm h hn
  have e' : ∀ n, mapGet (a.map (fun q => (q.1, q.2.config))) n = mapGet (b.map (fun q => (q.1, q.2.config))) n := by
    intro n
    rw [mapGet_mapValues (fun q : TextParser => q.config), mapGet_mapValues (fun q : TextParser => q.config), e]
  unfold parseFunctions
  rw [mapGet_mapValues (fun p : TextParser => parse lib.parserLib (a.map (fun q => (q.1, q.2.config))) a.length p.config),
    mapGet_mapValues (fun p : TextParser => parse lib.parserLib (b.map (fun q => (q.1, q.2.config))) b.length p.config), e, h.length_eq]
  congr 1
  funext p
  exact parse_congr _ e' _ _

section
variable {N : Type} {a b : XmlEnv}

mutual
theorem xmlAllValues_congr (h' : ∀ p r, a.primitiveValue p r = b.primitiveValue p r) : ∀ (x : XmlProp N) (node : N), xmlAllValues a x node = xmlAllValues b x node
  | .array _ select items, node => by
    have e : xmlAllValues a items = xmlAllValues b items := funext (xmlAllValues_congr h' items)
    simp only [xmlAllValues, e]
  | .object _ select properties, node => by
    simp only [xmlAllValues]
    split
    · rfl
    · rw [xmlObject_congr h' properties]
    · rfl
  | .primitive _ eval parser, node => by simp only [xmlAllValues, h']
theorem xmlObject_congr (h' : ∀ p r, a.primitiveValue p r = b.primitiveValue p r) : ∀ (l : List (XmlProp N)) (node : N) (values : GoMap Value), xmlObject a l node values = xmlObject b l node values
  | [], _, _ => by simp only [xmlObject]
  | x :: rest, node, values => by
    simp only [xmlObject, xmlAllValues_congr h' x node]
    split
    · rfl
    · exact xmlObject_congr h' rest _ _
end

mutual
theorem xmlSubValue_congr (h : ∀ p s, a.stringValue p s = b.stringValue p s) (h' : ∀ p r, a.primitiveValue p r = b.primitiveValue p r) : ∀ (x : XmlProp N) (node : N) (path : List String), xmlSubValue a x node path = xmlSubValue b x node path
  | .array _ select items, node, path => by
    have e : xmlAllValues a items = xmlAllValues b items := funext (xmlAllValues_congr h' items)
    cases path with
    | nil => simp only [xmlSubValue, e]
    | cons key sub =>
      simp only [xmlSubValue]
      split
      · rfl
      · split
        · rfl
        · split
          · rfl
          · exact xmlSubValue_congr h h' items _ _
  | .object _ select properties, node, path => by
    cases path with
    | nil =>
      simp only [xmlSubValue]
      split
      · rfl
      · rw [xmlObject_congr h' properties]
      · rfl
    | cons key sub =>
      simp only [xmlSubValue]
      split
      · rfl
      · exact xmlSubProperty_congr h h' properties _ _ _ _
      · rfl
  | .primitive _ eval parser, node, path => by
    simp only [xmlSubValue, h, h']
theorem xmlSubProperty_congr (h : ∀ p s, a.stringValue p s = b.stringValue p s) (h' : ∀ p r, a.primitiveValue p r = b.primitiveValue p r) : ∀ (l : List (XmlProp N)) (node : N) (key : String) (sub : List String) (absent : Res Value),
    xmlSubProperty a l node key sub absent = xmlSubProperty b l node key sub absent
  | [], _, _, _, _ => by simp only [xmlSubProperty]
  | x :: rest, node, key, sub, absent => by
    simp only [xmlSubProperty]
    split
    · exact xmlSubValue_congr h h' x _ _
    · exact xmlSubProperty_congr h h' rest _ _ _ _
end

theorem xmlRecord_congr (h : ∀ p s, a.stringValue p s = b.stringValue p s) (h' : ∀ p r, a.primitiveValue p r = b.primitiveValue p r) (l : List (XmlProp N)) (node : N) (position : Int) : xmlRecord a l node position = xmlRecord b l node position := by
  unfold xmlRecord
  rw [xmlObject_congr h']
  congr 1
  funext path
  split
  · rfl
  · split
    · rfl
    · exact xmlSubProperty_congr h h' _ _ _ _ _
end

theorem openInput_congr (files : Files) (x : InputDecl) (types : String → Option ParserType) {a b : GoMap (Bytes → Res Value)} (h : ∀ n, mapGet a n = mapGet b n) :
    openInput files x types a = openInput files x types b := by
  cases x with
  | csv c => simp only [openInput, openCsvInput, CsvDecl.csvColumns, h]
  | json c => rfl
  | xml c =>
    have e : c.record files.xpath types a = c.record files.xpath types b := by
      funext node position
      unfold XmlDecl.record
      have hs : ∀ p s, XmlEnv.stringValue ⟨a, types, files.xpath.floatToInt⟩ p s = XmlEnv.stringValue ⟨b, types, files.xpath.floatToInt⟩ p s := by
        intro p s
        simp only [XmlEnv.stringValue, h]
      refine xmlRecord_congr hs ?_ _ _ _
      intro p r
      cases r with
      | str s => exact hs p s
      | _ => rfl
    simp only [openInput, openXmlInput, e]

theorem inputs_congr {lib : StartLib} {files : Files} {texts texts' : GoMap TextParser} (h : texts.Perm texts') (hn : (texts.map (·.1)).Nodup) :
    InputDecl.instantiate (lib.onFiles files) texts = InputDecl.instantiate (lib.onFiles files) texts' := by
  have e := mapGet_perm h hn
  have et : parserTypes texts = parserTypes texts' := by
    funext n
    simp only [parserTypes, e]
  have ef := fun x types => openInput_congr files x types (parseFunctions_congr (lib.onFiles files) h hn)
  funext x
  cases x with
  | csv c =>
    simp only [InputDecl.instantiate, CsvDecl.instantiate, e, et]
    simp only [StartLib.onFiles] at ef ⊢
    simp only [ef]
  | json c =>
    simp only [InputDecl.instantiate, et]
    simp only [StartLib.onFiles] at ef ⊢
    simp only [ef]
  | xml c =>
    simp only [InputDecl.instantiate, et]
    simp only [StartLib.onFiles] at ef ⊢
    simp only [ef]

/-- The parsers and inputs of two starts are the same up to their order. -/
theorem stages_congr {lib : StartLib} {files : Files} {c c' : Config} (hre : Reordered c c') (k1 : (c.parsers.map (·.1)).Nodup) (k2 : (c.inputs.map (·.1)).Nodup)
    {texts : GoMap TextParser} {inputs : GoMap Input} (h1 : instantiateMap (ParserDecl.instantiate (lib.onFiles files)) c.parsers = .ok texts)
    (h2 : instantiateMap (InputDecl.instantiate (lib.onFiles files) texts) c.inputs = .ok inputs) :
    ∃ texts' inputs', instantiateMap (ParserDecl.instantiate (lib.onFiles files)) c'.parsers = .ok texts' ∧
      instantiateMap (InputDecl.instantiate (lib.onFiles files) texts') c'.inputs = .ok inputs' ∧ ∀ n, findInput inputs n = findInput inputs' n := by
  obtain ⟨texts', e1, p1⟩ := instantiateMap_perm hre.parsers h1
  obtain ⟨inputs', e2, p2⟩ := instantiateMap_perm hre.inputs h2
  have hn : (texts.map (·.1)).Nodup := by rw [instantiateMap_keys h1]; exact k1
  have hn' : (inputs.map (·.1)).Nodup := by rw [instantiateMap_keys h2]; exact k2
  refine ⟨texts', inputs', e1, by rw [← inputs_congr p1 hn]; exact e2, ?_⟩
  intro n
  unfold findInput
  rw [mapGet_perm p2 hn']

theorem diskOk_congr {inputs inputs' : GoMap Input} (h : ∀ n, findInput inputs n = findInput inputs' n) {st : Storage} {d : IndexDecl} : DiskOk inputs st d ↔ DiskOk inputs' st d := by
  unfold DiskOk
  rw [h]

end Rodb
