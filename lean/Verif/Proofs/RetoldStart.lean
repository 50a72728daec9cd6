import Verif.Proofs.RetoldOutput
import Verif.Proofs.Startup
import Verif.Proofs.Running
import Verif.Model.Inputs
/-
  The same records at other positions: the program.
-/
namespace Rodb
open Spec

theorem instantiateMap_retold {α β γ : Type} {Q : β → γ → Prop} {f : α → Res β} {g : α → Res γ} : ∀ {m : GoMap α}, (∀ e ∈ m, SameResult Q (f e.2) (g e.2)) →
    SameResult (All2 (PairRel (· = ·) Q)) (instantiateMap f m) (instantiateMap g m)
  | [], _ => .ok .nil
  | (k, x) :: rest, h => by
    have h1 := h _ (.head _)
    have h2 := instantiateMap_retold (fun e he => h e (.tail _ he))
    simp only [instantiateMap]
    revert h1 h2
    simp only
    generalize f x = a, g x = a', instantiateMap f rest = b, instantiateMap g rest = b'
    intro h1 h2
    cases h1 with
    | error e => exact .error e
    | ok h1 =>
      cases h2 with
      | error e => exact .error e
      | ok h2 => exact .ok (.cons (.mk rfl h1) h2)

theorem instantiateMap_same {α β : Type} {f g : α → Res β} : ∀ {m : GoMap α}, (∀ e ∈ m, g e.2 = f e.2) → instantiateMap g m = instantiateMap f m
  | [], _ => rfl
  | (k, x) :: rest, h => by
    have h1 := h _ (.head _)
    simp only at h1
    simp only [instantiateMap, h1, instantiateMap_same (fun e he => h e (.tail _ he))]

mutual
theorem checkRelationship_retold {inputs inputs' : GoMap Input} (h : ∀ n, (mapGet inputs' n).isSome = (mapGet inputs n).isSome) : ∀ r : Relationship, checkRelationship inputs' r = checkRelationship inputs r
  | .mk _ _ _ _ _ relationships => by simp only [checkRelationship, checkNested_retold h relationships]
theorem checkNested_retold {inputs inputs' : GoMap Input} (h : ∀ n, (mapGet inputs' n).isSome = (mapGet inputs n).isSome) : ∀ l : List (String × Relationship), checkNested inputs' l = checkNested inputs l
  | [] => by simp only [checkNested]
  | (_, .mk inputName isArray limit sort matching relationships) :: rest => by
    simp only [checkNested, h, checkRelationship_retold h (.mk inputName isArray limit sort matching relationships), checkNested_retold h rest]
end

theorem checkRelationships_retold {inputs inputs' : GoMap Input} (h : ∀ n, (mapGet inputs' n).isSome = (mapGet inputs n).isSome) : ∀ l : List (String × Relationship),
    checkRelationships inputs' l = checkRelationships inputs l
  | [] => rfl
  | (_, r) :: rest => by simp only [checkRelationships, checkRelationship_retold h, checkRelationships_retold h rest]

theorem findInput_retold {R : String → Int → Int → Prop} {inputs inputs' : GoMap Input} (h : ∀ n, OptRel (SameRecords (R n)) (mapGet inputs n) (mapGet inputs' n)) (n : String) :
    SameResult (fun i i' => SameRecords (R n) i i' ∧ mapGet inputs n = some i ∧ mapGet inputs' n = some i') (findInput inputs n) (findInput inputs' n) := by
  have hn := h n
  simp only [findInput]
  revert hn
  generalize mapGet inputs n = x, mapGet inputs' n = x'
  intro hn
  cases hn with
  | none => exact .error _
  | some hn => exact .ok ⟨hn, rfl, rfl⟩

/-- Full scans and map indexes. -/
def ScanOrMap : IndexDecl → Prop
  | .map _ => True
  | .noop _ => True
  | _ => False

theorem indexInstantiate_retold {R : String → Int → Int → Prop} {inputs inputs' : GoMap Input} (h : ∀ n, OptRel (SameRecords (R n)) (mapGet inputs n) (mapGet inputs' n))
    (hname : ∀ n i, mapGet inputs n = some i → i.name = n) (lib lib' : StartLib) (x : IndexDecl) (hx : ScanOrMap x) :
    SameResult (IndexRel R inputs inputs') (IndexDecl.instantiate lib inputs x) (IndexDecl.instantiate lib' inputs' x) := by
  have pair : ∀ n i i', mapGet inputs n = some i → mapGet inputs' n = some i' → SameRecords (R n) i i' := by
    intro n i i' hi hi'
    have hn := h n
    rw [hi, hi'] at hn
    cases hn with
    | some hn => exact hn
  cases x with
  | noop n => exact .ok (fun n i i' hi hi' filters => noop_rel (pair n i i' hi hi') filters)
  | map d =>
    simp only [IndexDecl.instantiate]
    have hf := findInput_retold h d.input
    revert hf
    generalize findInput inputs d.input = y, findInput inputs' d.input = y'
    intro hf
    cases hf with
    | error e => exact .error e
    | @ok i i' hf =>
      obtain ⟨hs, hi, hi'⟩ := hf
      have hm := newMap_rel { properties := d.properties } hs
      show SameResult _ (newMap { properties := d.properties } i >>= fun index => .ok ((fun input filters => index.getRecordPositions input.name filters) : IndexFn))
        (newMap { properties := d.properties } i' >>= fun index => .ok ((fun input filters => index.getRecordPositions input.name filters) : IndexFn))
      revert hm
      generalize newMap { properties := d.properties } i = z, newMap { properties := d.properties } i' = z'
      intro hm
      cases hm with
      | error e => exact .error e
      | ok hm =>
        refine .ok (fun n j j' hj hj' filters => ?_)
        have hjn := hname n j hj
        have hin := hname _ i hi
        simp only [(pair n j j' hj hj').name]
        by_cases hne : j.name = i.name
        · have e : n = d.input := by rw [← hjn, hne, hin]
          subst e
          rw [hne]
          exact getRecordPositions_rel hs.order hm filters
        · cases hm with
          | mk config hm =>
            simp only [MapIndex.getRecordPositions, ne_eq, hne, not_false_eq_true, if_true]
            exact .error _
  | wildcard d => exact absurd hx (fun h => h)
  | sqlite d => exact absurd hx (fun h => h)
  | fts5 d => exact absurd hx (fun h => h)

theorem instantiate_inputName {rest : StartLib} {files : Files} {texts : GoMap TextParser} {x : InputDecl} {i : Input} (h : InputDecl.instantiate (rest.onFiles files) texts x = .ok i) : i.name = x.name := by
  cases x with
  | csv d =>
    simp only [InputDecl.instantiate, CsvDecl.instantiate, bind_ok, StartLib.onFiles, openInput, openCsvInput] at h
    obtain ⟨_, _, columns, _, _, _, h⟩ := h
    split at h
    · cases h
    · simp only [bind_ok, ok_inj] at h
      obtain ⟨_, _, rfl⟩ := h
      rfl
  | xml d =>
    simp only [InputDecl.instantiate, StartLib.onFiles, openInput, openXmlInput] at h
    split at h
    · cases h
    · cases h; rfl
  | json d =>
    simp only [InputDecl.instantiate, StartLib.onFiles, openInput, openJsonInput] at h
    split at h
    · cases h
    · cases h; rfl

open Classical in
/-- The correspondence of the positions in the inputs of each name. -/
noncomputable def positionsOf (inputs inputs' : GoMap Input) (n : String) : Int → Int → Prop :=
  if h : ∃ C, OptRel (SameRecords C) (mapGet inputs n) (mapGet inputs' n) then choose h else fun _ _ => False

theorem inputs_retold {inputs inputs' : GoMap Input} (h : All2 (PairRel (· = ·) TellsTheSame) inputs inputs') (n : String) :
    OptRel (SameRecords (positionsOf inputs inputs' n)) (mapGet inputs n) (mapGet inputs' n) := by
  have he : ∃ C, OptRel (SameRecords C) (mapGet inputs n) (mapGet inputs' n) := by
    have hn := mapGet_rel h n
    revert hn
    generalize mapGet inputs n = x, mapGet inputs' n = x'
    intro hn
    cases hn with
    | none => exact ⟨fun _ _ => False, .none⟩
    | some hn => obtain ⟨C, hC⟩ := hn; exact ⟨C, .some hC⟩
  simp only [positionsOf, dif_pos he]
  exact Classical.choose_spec he

theorem start_retold {rest : StartLib} {files files' : Files} (hsort : OnlyCompares rest.sort) {c : Config} (hnames : ∀ k x, (k, x) ∈ c.inputs → x.name = k)
    (hindexes : ∀ e ∈ c.indexes, ScanOrMap e.2)
    (hin : ∀ texts, instantiateMap (ParserDecl.instantiate (rest.onFiles files)) c.parsers = .ok texts → ∀ e ∈ c.inputs,
      SameResult TellsTheSame (InputDecl.instantiate (rest.onFiles files) texts e.2) (InputDecl.instantiate (rest.onFiles files') texts e.2)) :
    start (rest.onFiles files') c = start (rest.onFiles files) c := by
  have e1 : ParserDecl.instantiate (rest.onFiles files') = ParserDecl.instantiate (rest.onFiles files) := rfl
  simp only [start, e1]
  cases q1 : instantiateMap (ParserDecl.instantiate (rest.onFiles files)) c.parsers with
  | error e => rfl
  | ok texts =>
    have h2 := instantiateMap_retold (hin texts q1)
    cases q2 : instantiateMap (InputDecl.instantiate (rest.onFiles files) texts) c.inputs with
    | error e =>
      rw [q2] at h2
      show (instantiateMap (InputDecl.instantiate (rest.onFiles files') texts) c.inputs >>= _) = (instantiateMap (InputDecl.instantiate (rest.onFiles files) texts) c.inputs >>= _)
      rw [q2]
      revert h2
      generalize instantiateMap (InputDecl.instantiate (rest.onFiles files') texts) c.inputs = y
      intro h2
      cases h2
      rfl
    | ok inputs =>
      cases q2' : instantiateMap (InputDecl.instantiate (rest.onFiles files') texts) c.inputs with
      | error e => rw [q2, q2'] at h2; cases h2
      | ok inputs' =>
        rw [q2, q2'] at h2
        cases h2 with
        | ok h2 =>
          have hi := inputs_retold h2
          have hname : ∀ n i, mapGet inputs n = some i → i.name = n := by
            intro n i hg
            obtain ⟨x, hx, hxi⟩ := instantiateMap_name q2 hg
            rw [instantiate_inputName hxi]
            exact hnames _ _ (mapGet_mem hx)
          have h3 := instantiateMap_retold (m := c.indexes) (fun e he => indexInstantiate_retold hi hname (rest.onFiles files) (rest.onFiles files') e.2 (hindexes e he))
          show (instantiateMap (InputDecl.instantiate (rest.onFiles files') texts) c.inputs >>= _) = (instantiateMap (InputDecl.instantiate (rest.onFiles files) texts) c.inputs >>= _)
          rw [q2, q2']
          show (instantiateMap (IndexDecl.instantiate (rest.onFiles files') inputs') c.indexes >>= _) = (instantiateMap (IndexDecl.instantiate (rest.onFiles files) inputs) c.indexes >>= _)
          revert h3
          generalize instantiateMap (IndexDecl.instantiate (rest.onFiles files) inputs) c.indexes = y, instantiateMap (IndexDecl.instantiate (rest.onFiles files') inputs') c.indexes = y'
          intro h3
          cases h3 with
          | error e => rfl
          | @ok indexes indexes' h3 =>
            have hsome : ∀ n, (mapGet inputs' n).isSome = (mapGet inputs n).isSome := by
              intro n
              have hn := hi n
              revert hn
              generalize mapGet inputs n = x, mapGet inputs' n = x'
              intro hn
              cases hn <;> rfl
            have e4 : OutputDecl.instantiate (rest.onFiles files') inputs' indexes' texts = OutputDecl.instantiate (rest.onFiles files) inputs indexes texts := by
              funext o
              have hd := mapGet_rel h3 "default"
              simp only [OutputDecl.instantiate, hsome, checkRelationships_retold hsome]
              revert hd
              generalize mapGet indexes "default" = x, mapGet indexes' "default" = x'
              intro hd
              cases hd with
              | none => rfl
              | @some f f' hd =>
                have henv : EnvRetold (positionsOf inputs inputs') (outputEnv (rest.onFiles files) inputs indexes f texts) (outputEnv (rest.onFiles files') inputs' indexes' f' texts) :=
                  ⟨hi, mapGet_rel h3, hd, rfl, rfl, hsort, fun _ _ _ => rfl⟩
                cases o with
                | graphql n => rfl
                | array n d =>
                  have e : arrayApi (outputEnv (rest.onFiles files') inputs' indexes' f' texts) d texts = arrayApi (outputEnv (rest.onFiles files) inputs indexes f texts) d texts := by
                    simp only [arrayApi, OutputApi.mk.injEq, true_and]
                    funext params payload
                    exact handleArray_retold henv d params
                  simp only [e]
                | object n d =>
                  have e : objectApi (outputEnv (rest.onFiles files') inputs' indexes' f' texts) d texts = objectApi (outputEnv (rest.onFiles files) inputs indexes f texts) d texts := by
                    simp only [objectApi, OutputApi.mk.injEq, true_and]
                    funext params payload
                    exact handleObject_retold henv d params
                  simp only [e]
            show (instantiateMap (OutputDecl.instantiate (rest.onFiles files') inputs' indexes' texts) c.outputs >>= _) = (instantiateMap (OutputDecl.instantiate (rest.onFiles files) inputs indexes texts) c.outputs >>= _)
            rw [e4]
            rfl

end Rodb
