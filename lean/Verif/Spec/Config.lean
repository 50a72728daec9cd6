import Verif.Model.Startup
import Verif.Spec.Service
/-
  Specification vocabulary: configurations.
-/
namespace Rodb.Spec

/-! ### Names and defaults -/

/-- The components of one kind have different names. -/
def DifferentNames {α : Type} (name : α → String) (l : List α) : Prop := (l.map name).Nodup

/-- `x` is the component called `n`: the one declared with this name or, if none is, the default one with this name. -/
def IsComponent {α : Type} (name : α → String) (declared defaults : List α) (n : String) (x : α) : Prop :=
  (x ∈ declared ∧ name x = n) ∨ ((∀ y ∈ declared, name y ≠ n) ∧ x ∈ defaults ∧ name x = n)

/-- The parsers that need not be declared. -/
def builtinParsers : List ParserDecl :=
  [⟨"string", .string ""⟩, ⟨"integer", .integer ""⟩, ⟨"float", .float "." ""⟩,
   ⟨"boolean", .boolean ["true", "1", "TRUE"] ["false", "0", "FALSE"]⟩, ⟨"json", .json⟩]

/-! ### Looking at configurations -/

/-- The data file of an input. -/
def dataFile : InputDecl → String
  | .csv c => c.path
  | .xml c => c.path
  | .json c => c.path

/-- The files of the certificate and of its key. -/
def httpsFiles : Option HttpsDecl → List String
  | none => []
  | some c => [c.certificatePath, c.privateKeyPath]

/-- The files that must exist for a configuration: those of the data, of the certificates and of their keys. -/
def filesOf (p : ParsedConfig) : List String := p.inputs.map dataFile ++ p.services.flatMap (fun s => httpsFiles s.https)

mutual
/-- A property of an XML input with all those inside it. -/
def xmlWithNested : XmlPropDecl → List XmlPropDecl
  | .mk name type parser xpath items properties => .mk name type parser xpath items properties :: (xmlItems items ++ xmlAll properties)
def xmlItems : Option XmlPropDecl → List XmlPropDecl
  | none => []
  | some p => xmlWithNested p
/-- All the properties, with those inside them. -/
def xmlAll : List XmlPropDecl → List XmlPropDecl
  | [] => []
  | p :: rest => xmlWithNested p ++ xmlAll rest
end

mutual
/-- A relationship with all those inside it. -/
def relationshipWithNested : Relationship → List Relationship
  | .mk input isArray limit sort matching relationships => .mk input isArray limit sort matching relationships :: relationshipsAll relationships
/-- All the relationships, with those inside them. -/
def relationshipsAll : List (String × Relationship) → List Relationship
  | [] => []
  | (_, r) :: rest => relationshipWithNested r ++ relationshipsAll rest
end

def inputOfRelationship : Relationship → String
  | .mk input _ _ _ _ _ => input

def sortOfRelationship : Relationship → List SortConfig
  | .mk _ _ _ sort _ _ => sort

def isArrayRelationship : Relationship → Bool
  | .mk _ isArray _ _ _ _ => isArray

def matchesOfRelationship : Relationship → List MatchConfig
  | .mk _ _ _ _ matching _ => matching

/-- The input that an index is about; a no-op index is about all of them. -/
def inputOfIndex : IndexDecl → Option String
  | .map c => some c.input
  | .wildcard c => some c.input
  | .sqlite c => some c.input
  | .fts5 c => some c.input
  | .noop _ => none

/-- The index can search the property in the input. An fts5 index is searched with the property `match`. -/
def Searches : IndexDecl → (input property : String) → Prop
  | .map c, input, property => c.input = input ∧ property ∈ c.properties
  | .wildcard c, input, property => c.input = input ∧ property ∈ c.properties
  | .sqlite c, input, property => c.input = input ∧ ∃ p ∈ c.properties, p.name = property
  | .fts5 c, input, property => c.input = input ∧ property = "match"
  | .noop _, _, _ => True

def inputOfOutput : OutputDecl → Option String
  | .graphql _ => none
  | .array _ c => some c.input
  | .object _ c => some c.input

def parametersOfOutput : OutputDecl → GoMap ParamConfig
  | .graphql _ => []
  | .array _ c => c.parameters
  | .object _ c => c.parameters

def relationshipsOfOutput : OutputDecl → List (String × Relationship)
  | .graphql _ => []
  | .array _ c => c.relationships
  | .object _ c => c.relationships

/-- The name is the one of something in the map. -/
def Known {α : Type} (m : GoMap α) (name : String) : Prop := ∃ x, mapGet m name = some x

/-- Every component is found under its own name, and names are given once. -/
def Registered {α : Type} (name : α → String) (m : GoMap α) : Prop := (m.map (·.1)).Nodup ∧ ∀ k x, (k, x) ∈ m → name x = k ∧ k ≠ ""

/-- Every reference from a component to another one leads to a component that can be used there. -/
structure References (c : Config) : Prop where
  default : Known c.indexes "default"
  split : ∀ n p, (n, p) ∈ c.parsers → ∀ delimiter isRegexp parser, p.kind = .split delimiter isRegexp parser → Known c.parsers parser
  columns : ∀ n d, (n, .csv d) ∈ c.inputs → ∀ column ∈ d.columns, Known c.parsers column.parser
  properties : ∀ n d, (n, .xml d) ∈ c.inputs → ∀ name parser xpath items properties,
    .mk name "primitive" parser xpath items properties ∈ xmlAll d.properties → Known c.parsers parser
  indexes : ∀ n i, (n, i) ∈ c.indexes → ∀ input, inputOfIndex i = some input → Known c.inputs input
  outputs : ∀ n o, (n, o) ∈ c.outputs → ∀ input, inputOfOutput o = some input → Known c.inputs input ∧
    ∀ name param, (name, param) ∈ parametersOfOutput o →
      (∃ parser, mapGet c.parsers param.parser = some parser ∧ parser.primitive = true) ∧
      ∃ index, mapGet c.indexes param.index = some index ∧ Searches index input param.property
  relationships : ∀ n o, (n, o) ∈ c.outputs → ∀ r ∈ relationshipsAll (relationshipsOfOutput o), Known c.inputs (inputOfRelationship r) ∧
    ∀ m ∈ matchesOfRelationship r, ∃ index, mapGet c.indexes m.childIndex = some index ∧ Searches index (inputOfRelationship r) m.childProperty
  routes : ∀ n s, (n, s) ∈ c.services → ∀ route ∈ s.routes, Known c.outputs route.output

/-- The same configuration, with its maps in another order. -/
structure Reordered (a b : Config) : Prop where
  parsers : a.parsers.Perm b.parsers
  inputs : a.inputs.Perm b.inputs
  indexes : a.indexes.Perm b.indexes
  services : a.services.Perm b.services
  outputs : a.outputs.Perm b.outputs

mutual
/-- The same relationship, with the maps of relationships inside of it in another order, at any depth. -/
inductive Rearranged : Relationship → Relationship → Prop
  | mk {input : String} {isArray : Bool} {limit : Nat} {sort : List SortConfig} {matching : List MatchConfig} {l l' : List (String × Relationship)} :
    RearrangedAll l l' → Rearranged (.mk input isArray limit sort matching l) (.mk input isArray limit sort matching l')
/-- The same map of relationships in another order, with the maps inside of them in other orders. -/
inductive RearrangedAll : List (String × Relationship) → List (String × Relationship) → Prop
  | nil : RearrangedAll [] []
  | cons {name : String} {r r' : Relationship} {l l' : List (String × Relationship)} : Rearranged r r' → RearrangedAll l l' → RearrangedAll ((name, r) :: l) ((name, r') :: l')
  | swap (a b : String × Relationship) (l : List (String × Relationship)) : RearrangedAll (a :: b :: l) (b :: a :: l)
  | trans {l l' l'' : List (String × Relationship)} : RearrangedAll l l' → RearrangedAll l' l'' → RearrangedAll l l''
end

/-- The same output, with its maps of parameters and relationships, and those inside of them, in other orders. -/
inductive RearrangedOutput : OutputDecl → OutputDecl → Prop
  | graphql (name : String) : RearrangedOutput (.graphql name) (.graphql name)
  | array (name : String) {d d' : ArrayConfig} : d.input = d'.input → d.limit = d'.limit → d.offsetParameter = d'.offsetParameter → d.parameters.Perm d'.parameters →
    RearrangedAll d.relationships d'.relationships → RearrangedOutput (.array name d) (.array name d')
  | object (name : String) {d d' : ObjectConfig} : d.input = d'.input → d.parameters.Perm d'.parameters → RearrangedAll d.relationships d'.relationships →
    RearrangedOutput (.object name d) (.object name d')

/-- The outputs are the same one by one, with their maps in other orders. -/
inductive RearrangedOutputs : List OutputDecl → List OutputDecl → Prop
  | nil : RearrangedOutputs [] []
  | cons {o o' : OutputDecl} {l l' : List OutputDecl} : RearrangedOutput o o' → RearrangedOutputs l l' → RearrangedOutputs (o :: l) (o' :: l')

/-! ### Starting -/

/-- The same input, whatever columns were found in its first row. -/
def SameFile : InputDecl → InputDecl → Prop
  | .csv a, b => ∃ columns, b = .csv { a with columns := columns }
  | a, b => b = a

/-- What starting needs outside of rodb is there: the character sets are known, the files can be opened and watched, the first row of a CSV file with
detected columns has different non-empty names, the indexes can be built, the addresses are free. -/
structure Available (lib : StartLib) (c : Config) : Prop where
  charset : ∀ n p charset, (n, p) ∈ c.parsers → p.kind = .string charset → charset ≠ "" → ∃ f, lib.charset charset = .ok f
  openCsv : ∀ n d, (n, .csv d) ∈ c.inputs → lib.openCsv d = .ok ()
  firstRow : ∀ n d, (n, .csv d) ∈ c.inputs → d.autodetectColumns = true → ∃ row, lib.firstRow d = .ok row ∧ row.Nodup ∧ "" ∉ row
  input : ∀ n d, (n, d) ∈ c.inputs → ∀ d', SameFile d d' → ∀ types parsers, ∃ input, lib.input d' types parsers = .ok input
  map : ∀ n d, (n, .map d) ∈ c.indexes → ∀ e, (d.input, e) ∈ c.inputs → ∀ e', SameFile e e' → ∀ types parsers input, lib.input e' types parsers = .ok input →
    ∃ index, newMap { properties := d.properties } input = .ok index
  index : ∀ n i, (n, i) ∈ c.indexes → ∀ input, ∃ index, lib.index i input = .ok index
  listen : ∀ n s, (n, s) ∈ c.services → lib.listen s = .ok ()

/-- A parser without a hyphen among the ignored characters and the decimal separator. -/
def HyphenFree (p : ParserDecl) : Prop :=
  match p.kind with
  | .integer ignore => '-' ∉ ignore.toList
  | .float separator ignore => '-' ∉ separator.toList ∧ '-' ∉ ignore.toList
  | _ => True

/-- A route path made of plain texts and placeholders, whose names are those of parameters of its output; their parsers have no hyphen. -/
def GoodRoute (c : Config) (route : RouteDecl) : Prop :=
  ∃ first placeholders, route.path.toList = template first placeholders ∧ GoodTemplate first placeholders ∧
    ∀ o, mapGet c.outputs route.output = some o → ∀ p ∈ placeholders, ∃ param,
      mapGet (parametersOfOutput o) (String.ofList p.1) = some param ∧ ∀ parser, mapGet c.parsers param.parser = some parser → HyphenFree parser

/-! ### Repetitions -/

def namesOfXml (l : List XmlPropDecl) : List String := l.map XmlPropDecl.name

/-- Nothing is listed twice: the columns of a CSV input, the properties of an XML input or of an object in it, the properties of an index, the
sorted and matched properties of a relationship, the paths of a service. -/
structure NoRepetition (c : Config) : Prop where
  columns : ∀ n d, (n, .csv d) ∈ c.inputs → (d.columns.map ColumnDecl.name).Nodup
  properties : ∀ n d, (n, .xml d) ∈ c.inputs → (namesOfXml d.properties).Nodup ∧ ∀ name type parser xpath items properties,
    .mk name type parser xpath items properties ∈ xmlAll d.properties → (namesOfXml properties).Nodup
  map : ∀ n d, (n, .map d) ∈ c.indexes → d.properties.Nodup
  wildcard : ∀ n d, (n, .wildcard d) ∈ c.indexes → d.properties.Nodup
  sqlite : ∀ n d, (n, .sqlite d) ∈ c.indexes → (d.properties.map SqlitePropertyDecl.name).Nodup
  fts5 : ∀ n d, (n, .fts5 d) ∈ c.indexes → d.properties.Nodup
  relationships : ∀ n o, (n, o) ∈ c.outputs → ∀ r ∈ relationshipsAll (relationshipsOfOutput o),
    ((sortOfRelationship r).map SortConfig.property).Nodup ∧ ((matchesOfRelationship r).map MatchConfig.childProperty).Nodup
  routes : ∀ n s, (n, s) ∈ c.services → (s.routes.map RouteDecl.path).Nodup

/-! ### Collations -/

/-- The collations of the documentation (docs/schema/indexes/sqlite.yaml). -/
def documentedCollations : List String := ["binary", "nocase", "rtrim"]

/-- A spelling of an ASCII text with any mix of upper and lower case letters. -/
def AnyCase (text spelling : String) : Prop := spelling.toList.map Char.toLower = text.toList

end Rodb.Spec
