import Verif.Proofs.Gap
import Verif.Props.RestartProps
/-
  C115: errors while a request is answered. C116: starts of the program that are killed anywhere.
-/
namespace Rodb
open Spec

/-- **C115** If any searches of any indexes fail, at once or after any number of positions, and any records cannot be read, then the list output answers a request as it would if nothing had failed, or
with an error. -/
theorem C115_list (env env' : OutputEnv) (h : MayFail env env') (config : ArrayConfig) (params : GoMap Bytes) : SameOrError (handleArray env config params) (handleArray env' config params) :=
  handleArray_fails h config params

/-- **C115** Likewise for the object output. -/
theorem C115_object (env env' : OutputEnv) (h : MayFail env env') (config : ObjectConfig) (params : GoMap Bytes) : SameOrError (handleObject env config params) (handleObject env' config params) :=
  handleObject_fails h config params

/-- **C115** Every response of the services, to any request: if any searches of any indexes fail and any records cannot be read, it is the response that is sent if nothing fails, or it has the status
500 (Internal Server Error). -/
theorem C115_response (lib : StartLib) (inputs inputs' : GoMap Input) (indexes indexes' : GoMap IndexFn) (parsers : GoMap TextParser)
    (hinputs : ∀ n, InputMayFail (mapGet inputs n) (mapGet inputs' n)) (hindexes : ∀ n, IndexMayFail inputs inputs' (mapGet indexes n) (mapGet indexes' n))
    (outputs : GoMap OutputDecl) (services : GoMap ServiceDecl) (apis' : GoMap OutputApi) (running : GoMap (String × List Route))
    (houtputs : instantiateMap (OutputDecl.instantiate lib inputs' indexes' parsers) outputs = .ok apis') (hservices : instantiateMap (ServiceDecl.instantiate lib apis') services = .ok running)
    (service : ServiceLib) :
    ∃ apis right, instantiateMap (OutputDecl.instantiate lib inputs indexes parsers) outputs = .ok apis ∧ instantiateMap (ServiceDecl.instantiate lib apis) services = .ok right ∧
      AnswersRightOr500 service right running := by
  obtain ⟨apis, h1, hrel⟩ := instantiateMap_rel (R := fun y z => ApiMayFail z y) (fun o api' h => output_fails hinputs hindexes o h) houtputs
  obtain ⟨right, h2, hrel2⟩ := instantiateMap_rel (R := fun (y z : String × List Route) => y.1 = z.1 ∧ RoutesMayFail z.2 y.2) (g := ServiceDecl.instantiate lib apis)
    (fun s y hy => service_fails (fun n => by
      rcases hrel.get n with ⟨a, b⟩ | ⟨a, b, e1, e2, hab⟩
      · exact .inl ⟨b, a⟩
      · exact .inr ⟨b, a, e2, e1, hab⟩) s hy) hservices
  exact ⟨apis, right, h1, h2, answersRightOr500_of hrel2⟩

namespace FailingExample
/-- The input of `OutputExample`, and the same one when its second record can no longer be read. -/
def broken : Input := { OutputExample.input with fetch := fun p => if p = 7 then .error (.err "input/output error") else OutputExample.input.fetch p }
/-- An index that finds the first two records, and fails before the second one when `ok` is false. -/
def index (ok : Bool) : IndexFn := fun _ _ => .ok (if ok then [.ok 0, .ok 7] else [.ok 0, .error (.err "input/output error")])
def env (input : Input) (ok : Bool) : OutputEnv :=
  { inputs := [("in", input)], defaultIndex := index true, parsers := OutputExample.parsers, visit := fun _ _ l => l,
    indexes := [("scan", index true), ("map", index ok)], sort := fun _ l => l }
def show? : Answer → Option (Option Nat)
  | .data (.arr rows) => some (some rows.length)
  | .error _ => some none
  | _ => none

theorem index_fails (ok : Bool) (inputs inputs' : GoMap Input) : IndexMayFail inputs inputs' (some (index true)) (some (index ok)) := by
  intro n input input' _ _ filters
  cases ok
  · exact .inr (.inr ⟨_, 1, _, rfl, rfl⟩)
  · exact .inl rfl

theorem mayFail (ok : Bool) : MayFail (env OutputExample.input true) (env broken ok) where
  inputs n := by
    simp only [env, mapGet_eq_lookup, List.lookup]
    split
    · intro p
      simp only [broken]
      split
      · exact .inr ⟨_, rfl⟩
      · exact .inl rfl
    · trivial
  indexes n := by
    simp only [env, mapGet_eq_lookup, List.lookup]
    split
    · exact index_fails true _ _
    · split
      · exact index_fails ok _ _
      · trivial
  defaultIndex := index_fails true _ _
  parsers := rfl
  sort := rfl
  visit _ _ _ := rfl
end FailingExample

/-- A list of two records, of which the second one cannot be read: the request for both fails, that for the first one is answered as before. -/
example : (∀ params, SameOrError (handleArray (FailingExample.env OutputExample.input true) OutputExample.array params) (handleArray (FailingExample.env FailingExample.broken true) OutputExample.array params)) ∧
    FailingExample.show? (handleArray (FailingExample.env OutputExample.input true) OutputExample.array [("number", [49])]) = some (some 2) ∧
    FailingExample.show? (handleArray (FailingExample.env FailingExample.broken true) OutputExample.array [("number", [49])]) = some none ∧
    FailingExample.show? (handleArray (FailingExample.env FailingExample.broken true) OutputExample.array [("number", [49]), ("limit", [49])]) = some (some 1) :=
  ⟨fun params => C115_list _ _ (FailingExample.mayFail true) _ params, by decide +kernel, by decide +kernel, by decide +kernel⟩

/-- Likewise if the index fails after the first position. -/
example : (∀ params, SameOrError (handleArray (FailingExample.env OutputExample.input true) OutputExample.array params) (handleArray (FailingExample.env FailingExample.broken false) OutputExample.array params)) ∧
    FailingExample.show? (handleArray (FailingExample.env FailingExample.broken false) OutputExample.array [("number", [49])]) = some none ∧
    FailingExample.show? (handleArray (FailingExample.env FailingExample.broken false) OutputExample.array [("number", [49]), ("limit", [49])]) = some (some 1) :=
  ⟨fun params => C115_list _ _ (FailingExample.mayFail false) _ params, by decide +kernel, by decide +kernel⟩

/-! ### Starts that are killed anywhere -/

theorem storedOn_storage {config : ConfigLib} {lib : StartLib} {files : Files} {p : ParsedConfig} {st st' : Storage} {functions : GoMap (Bytes → Res Value)} {x : InputDecl} {asked : List String}
    {objects : List (GoMap Value)} (h : StoredOn config (lib.onStorage st') files st p functions x asked objects) : StoredOn config lib files st p functions x asked objects :=
  ⟨fun d hd hx e input he ho => h.wildcard d hd hx e input (withColumns_storage.2 he) ho,
    fun d hd hx => ⟨(h.sqlite d hd hx).1, fun e input he ho => (h.sqlite d hd hx).2 e input (withColumns_storage.2 he) ho⟩,
    fun d hd hx => ⟨(h.fts5 d hd hx).1, (h.fts5 d hd hx).2.1, fun e input he ho => (h.fts5 d hd hx).2.2 e input (withColumns_storage.2 he) ho⟩⟩

/-- **C116** The program as a whole, over its life on a machine, with starts that are killed anywhere: after any number of starts, successful or not, or killed at any byte of a file that they write, every
response of a program that has started is the right one, or has the status 500 (Internal Server Error). The right responses are those of `right`, the services of the same configuration on `machine`,
where no file was cut: requests for lists and objects get what the files say, as in C108.
Missing for the full C116: a data file that changes and keeps its size and the second of its modification time (see C114), and what is missing in C108. -/
theorem C116_killed_anywhere_partial (file : ConfigFileLib) (config : ConfigLib) (path : String) (p : ParsedConfig) (hdescribes : FileDescribes file path p) (c : Config)
    (hload : loadConfigFile file config path = .ok c) (hown : OwnPlaces config p) (lib : StartLib) (hsort : SortContract lib.sort) (files : Files)
    (hvisit : ∀ (path : List Nat) (α : Type) (l : List α), (lib.visit path l).Perm l) (st : Storage) (hplan : PlansPermute st.sql)
    (runs : List Run) (c' : Config) (hre : Reordered c c') (running : GoMap (String × List Route)) (st' : Storage)
    (hstart : startOn (lib.onFiles files) (afterProgramRuns lib st runs) c' = (.ok running, st'))
    (service : ServiceLib) (hlib : RegexpContract service.find) (formatFloat : Int → Bytes) (hencode : service.encode = encodeJson formatFloat) (parseFloat : Bytes → Res GoFloat) :
    ∃ texts functions, ParsersRun (lib.onFiles files) p texts functions ∧
      ∀ (asked : String → List String) (tables : String → List (GoMap Value)), PlainDefault p →
      (∀ x ∈ p.inputs, FileContent files parseFloat p functions x (asked x.name) (tables x.name)) →
      (∀ x ∈ p.inputs, StoredOn config lib files st p functions x (asked x.name) (tables x.name)) →
      (∀ r ∈ runs, EarlierStart lib files st p functions c r) →
      ∃ (right : GoMap (String × List Route)) (machine : Storage) (env : OutputEnv) (apis : GoMap OutputApi), AnswersRightOr500 service right running ∧
        startOn (lib.onFiles files) machine c' = (.ok right, machine) ∧ env.parsers = functions ∧ Running config ((lib.onStorage machine).onFiles files) p texts env apis right ∧
        ListsAnswered config (lib.onStorage machine) files st p env right service formatFloat asked tables ∧
        ObjectsAnswered config (lib.onStorage machine) files st p env right service formatFloat asked tables := by
  obtain ⟨p', g1, h2⟩ := (loadConfigFile_iff file config path c).1 hload
  obtain rfl := g1.unique hdescribes
  have hw := (C76_accepted config p').1 ⟨c, h2⟩
  obtain ⟨_, ⟨k1, _⟩, ⟨k2, _⟩, _⟩ := loadConfig_ok h2
  have k1' : (c'.parsers.map (·.1)).Nodup := (hre.parsers.map _).nodup_iff.1 k1
  have k2' : (c'.inputs.map (·.1)).Nodup := (hre.inputs.map _).nodup_iff.1 k2
  obtain ⟨texts, inputs, t1, t2⟩ := startOn_stages hstart
  obtain ⟨hparsers, hin⟩ := inputs_declared h2 hre t1 t2
  refine ⟨texts, _, hparsers, fun asked tables hdef hdata hstored hruns => ?_⟩
  have hback : ∀ c'', Reordered c c'' → Reordered c' c'' := fun c'' h =>
    ⟨hre.parsers.symm.trans h.parsers, hre.inputs.symm.trans h.inputs, hre.indexes.symm.trans h.indexes, hre.services.symm.trans h.services, hre.outputs.symm.trans h.outputs⟩
  have hapart' := ownPlaces_apart h2 hown
  have hapart : ∀ a ∈ c'.indexes, ApartFrom c'.indexes a.2 := fun a ha b hb => hapart' a (hre.indexes.symm.subset ha) b (hre.indexes.symm.subset hb)
  have hdisk := storedOn_disk hw hin hdata hstored
  have hall : ∀ a ∈ c'.indexes, DiskLeft inputs st a.2 := by
    intro a ha
    refine .inl (.inl ?_)
    rcases indexes_declared h2 (hre.indexes.symm.subset ha) with ⟨i, hi, e⟩ | ⟨n, e⟩
    · rw [e]
      exact hdisk i hi
    · rw [e]
      exact fun _ _ => ⟨fun _ h => (by cases h), fun _ _ h => (by cases h)⟩
  obtain ⟨⟨j1, j2⟩, jleft⟩ := afterProgramRuns_short hapart runs st (earlierRuns_of h2 hw hre t1 t2 hdata hstored hruns) hall
  have j3 : ∀ a ∈ c'.indexes, DiskShort inputs (afterProgramRuns lib st runs) a.2 := by
    intro a ha
    refine (jleft a ha).resolve_right (fun hrefused => ?_)
    obtain ⟨e, he⟩ := openIndexes_cut (lib := lib.onFiles files) (inputs := inputs) c'.indexes _ ⟨a, ha, hrefused⟩
    obtain ⟨fs, hfs⟩ := (startOn_inputs (st := afterProgramRuns lib st runs) t1 t2).2 running (by rw [hstart])
    rw [he] at hfs
    cases hfs
  obtain ⟨full, htwin, hfull⟩ := twin_exists (inputs := inputs) (l := c'.indexes) (st := afterProgramRuns lib st runs)
  obtain ⟨right, machine, hright, hrel⟩ := startOn_twin t1 t2 hapart htwin hstart
  have hfsql : full.sql = st.sql := htwin.sql.trans j2
  have hflower : full.lower = st.lower := htwin.lower.trans j1
  have hdeclared : ∀ i ∈ p'.indexes, DiskOk inputs full (completedIndex config i) := by
    intro i hi
    have := ((C77_defaults config p' c h2 i.name).2.2.1 _).2 ⟨i, .inl ⟨hi, rfl⟩, rfl⟩
    exact hfull j3 _ (hre.indexes.subset (mapGet_mem this))
  obtain ⟨⟨e1, e2⟩, h3, h4, h5, env, apis, hfun, hrun⟩ := start_after_with h2 hw hown full (by rw [hfsql]; exact hplan) [] trivial c' hre hright t1 t2 parseFloat asked tables hdata
    (fun x hx => storedOn_storage (storedOn_kept (hin.2 x hx) (hstored x hx) hfsql hdeclared)) (by intro r hr; cases hr)
  refine ⟨right, machine, env, apis, answersRightOr500_of hrel, by rw [h5 c' hre, h4], hfun, hrun, ?_, ?_⟩
  · have hl := lists_answered (lib := lib.onStorage machine) (st := machine) hsort hvisit hw hrun rfl service hlib formatFloat hencode parseFloat asked tables hdef (by rw [hfun]; exact hdata)
      (by rw [hfun]; exact h3)
    unfold ListsAnswered at hl ⊢
    rw [foundIn_storage (e1.trans hflower) (e2.trans hfsql), askable_storage (e1.trans hflower)] at hl
    exact hl
  · have hl := objects_answered (lib := lib.onStorage machine) (st := machine) hsort hvisit hw hrun rfl service hlib formatFloat hencode parseFloat asked tables hdef (by rw [hfun]; exact hdata)
      (by rw [hfun]; exact h3)
    unfold ObjectsAnswered at hl ⊢
    rw [foundIn_storage (e1.trans hflower) (e2.trans hfsql), askable_storage (e1.trans hflower)] at hl
    exact hl

theorem KilledExample.plain_default : PlainDefault RestartExample.parsed := by
  intro i hi
  rcases hi with ⟨h, e⟩ | ⟨_, h, _⟩
  · simp only [RestartExample.parsed, List.mem_cons, List.not_mem_nil, or_false] at h
    rcases h with rfl | rfl | rfl <;> exact absurd e (by decide)
  · exact ⟨_, List.mem_singleton.1 h⟩

/-- The program of `KilledExample`: its first start was killed when 200 bytes of the wildcard index were in its file, and the next one succeeds. A request for "b" now fails (see `C112_false`); every response
is that of a program on a machine on which no file was cut, or has the status 500. -/
example (service : ServiceLib) (hlib : RegexpContract service.find) (hencode : service.encode = encodeJson JsonExample.format) :
    ∃ c running st', loadConfigFile RestartExample.file ConfigExample.lib "rodb.yaml" = .ok c ∧
      startOn RestartExample.startLib (afterProgramRuns KilledExample.lib StoredFilesExample.storage [KilledExample.killed c]) c = (.ok running, st') ∧ KilledExample.answers running = some false ∧
      ∃ right machine env, AnswersRightOr500 service right running ∧ startOn RestartExample.startLib machine c = (.ok right, machine) ∧
        ListsAnswered ConfigExample.lib (KilledExample.lib.onStorage machine) FilesExample.machine StoredFilesExample.storage RestartExample.parsed env right service JsonExample.format
          StoredFilesExample.asked StoredFilesExample.tables := by
  obtain ⟨hd, c, hload, hc⟩ := RestartExample.loads
  obtain ⟨c', hc', hout⟩ := KilledExample.starts
  rw [hc] at hc'
  cases hc'
  unfold KilledExample.outcome at hout
  split at hout
  · rename_i running st' new st'' e1 e2
    split at hout
    · rename_i a b q1 q2
      cases hout
      obtain ⟨texts, functions, hruns, h⟩ := C116_killed_anywhere_partial RestartExample.file ConfigExample.lib "rodb.yaml" _ hd c hload RestartExample.own KilledExample.lib
        goInsertionSort_contract FilesExample.machine (fun _ _ _ => .refl _) StoredFilesExample.storage (fun _ _ => .refl _) [KilledExample.killed c]
        c ⟨.refl _, .refl _, .refl _, .refl _, .refl _⟩ running st' e1
        service hlib JsonExample.format hencode JsonExample.parse
      obtain ⟨p1, p2⟩ := RestartExample.parser hruns
      obtain ⟨right, machine, env, apis, r1, r2, _, _, r3, _⟩ := h StoredFilesExample.asked StoredFilesExample.tables KilledExample.plain_default (RestartExample.data p1 p2) (RestartExample.stored p1 p2)
        (Spec.StartsOf.earlier (by intro r hr; cases List.mem_singleton.1 hr; exact ⟨rfl, .refl _, .refl _, .refl _, .refl _, .refl _⟩))
      exact ⟨c, running, st', hload, e1, q1, right, machine, env, r1, r2, r3⟩
    · cases hout
  · cases hout

end Rodb
