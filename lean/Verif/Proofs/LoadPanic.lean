import Verif.Proofs.ConfigOrder
import Verif.Spec.WellFormed
/-
  Helper lemmas: loading a configuration with files that cannot be looked at.
-/
namespace Rodb
open Spec

/-- The first result is the second one, or a panic. -/
def SameOrPanic {α : Type} (x y : Res α) : Prop := x = y ∨ ∃ m, x = .error (.panic m)

theorem sop_same {α : Type} (x : Res α) : SameOrPanic x x := .inl rfl
theorem sop_bind {α β : Type} {x y : Res α} {f g : α → Res β} (h1 : SameOrPanic x y) (h2 : ∀ a, SameOrPanic (f a) (g a)) : SameOrPanic (x >>= f) (y >>= g) := by
  rcases h1 with rfl | ⟨m, rfl⟩
  · cases x with
    | error e => exact .inl rfl
    | ok a => exact h2 a
  · exact .inr ⟨m, rfl⟩
theorem sop_ite {α : Type} {p : Prop} [Decidable p] {x y x' y' : Res α} (h1 : SameOrPanic x x') (h2 : SameOrPanic y y') :
    SameOrPanic (if p then x else y) (if p then x' else y') := by
  by_cases h : p
  · rw [if_pos h, if_pos h]; exact h1
  · rw [if_neg h, if_neg h]; exact h2
theorem sop_map {α : Type} {f g : String → α → Res α} : ∀ {l : GoMap α}, (∀ k x, (k, x) ∈ l → SameOrPanic (f k x) (g k x)) →
    SameOrPanic (validateMap f l) (validateMap g l)
  | [], _ => sop_same _
  | (k, x) :: _, h => sop_bind (h k x (.head _)) (fun _ => sop_bind (sop_map (fun k x hx => h k x (.tail _ hx))) (fun _ => sop_same _))

/-- The environment in which the files that cannot be looked at are there. -/
def lookable (lib : ConfigLib) (files : List String) : ConfigLib :=
  { lib with stat := fun f => if f ∈ files ∧ lib.stat f = .failed then .file else lib.stat f }

theorem sop_checkFile (lib : ConfigLib) (files : List String) (path : String) : SameOrPanic (checkFile lib path) (checkFile (lookable lib files) path) := by
  by_cases h : path ∈ files ∧ lib.stat path = .failed
  · right; simp only [checkFile, h.2]; exact ⟨_, rfl⟩
  · left; simp only [checkFile, lookable, if_neg h]

mutual
theorem XmlPropDecl.lookable (lib : ConfigLib) (files : List String) (ps : GoMap ParserDecl) (r : Bool) : ∀ (p : XmlPropDecl),
    p.validate (lookable lib files) ps r = p.validate lib ps r
  | .mk name type parser xpath items properties => by
    simp only [XmlPropDecl.validate, lookable_xmlItems lib files ps items, lookable_xmlProperties lib files ps properties]; rfl
theorem lookable_xmlItems (lib : ConfigLib) (files : List String) (ps : GoMap ParserDecl) : ∀ (p : Option XmlPropDecl),
    validateXmlItems (lookable lib files) ps p = validateXmlItems lib ps p
  | none => by simp only [validateXmlItems]
  | some p => by simp only [validateXmlItems, XmlPropDecl.lookable lib files ps false p]
theorem lookable_xmlProperties (lib : ConfigLib) (files : List String) (ps : GoMap ParserDecl) : ∀ (p : List XmlPropDecl) (seen : List String),
    validateXmlProperties (lookable lib files) ps seen p = validateXmlProperties lib ps seen p
  | [], _ => by simp only [validateXmlProperties]
  | p :: rest, seen => by
    simp only [validateXmlProperties, XmlPropDecl.lookable lib files ps true p, lookable_xmlProperties lib files ps rest]
end

theorem InputDecl.sop (lib : ConfigLib) (files : List String) (ps : GoMap ParserDecl) (i : InputDecl) : SameOrPanic (i.validate lib ps) (i.validate (lookable lib files) ps) := by
  cases i with
  | csv c =>
    refine sop_bind ?_ (fun _ => sop_same _)
    unfold CsvDecl.validate
    refine sop_bind (sop_same _) (fun _ => ?_)
    exact sop_ite (sop_bind (sop_same _) (fun _ => sop_bind (sop_checkFile _ _ _) (fun _ => sop_same _)))
      (sop_bind (sop_same _) (fun _ => sop_bind (sop_checkFile _ _ _) (fun _ => sop_same _)))
  | xml c =>
    refine sop_bind ?_ (fun _ => sop_same _)
    unfold XmlDecl.validate
    refine sop_bind (sop_same _) (fun _ => sop_bind (sop_same _) (fun _ => sop_bind (sop_same _) (fun _ => sop_bind (sop_checkFile _ _ _) (fun _ => ?_))))
    rw [lookable_xmlProperties]
    exact sop_same _
  | json c => exact sop_bind (sop_bind (sop_same _) (fun _ => sop_bind (sop_checkFile _ _ _) (fun _ => sop_same _))) (fun _ => sop_same _)

theorem ServiceDecl.sop (lib : ConfigLib) (files : List String) (os : GoMap OutputDecl) (s : ServiceDecl) :
    SameOrPanic (s.validate lib os) (s.validate (lookable lib files) os) := by
  unfold ServiceDecl.validate
  refine sop_bind (sop_same _) (fun _ => sop_bind (sop_same _) (fun _ => sop_bind ?_ (fun _ => sop_same _)))
  cases s.https with
  | none => exact sop_same _
  | some c =>
    exact sop_bind (sop_bind (sop_same _) (fun _ => sop_bind (sop_checkFile _ _ _) (fun _ => sop_bind (sop_same _) (fun _ => sop_bind (sop_checkFile _ _ _) (fun _ => sop_same _)))))
      (fun _ => sop_same _)

theorem IndexDecl.lookable {lib : ConfigLib} {files : List String} {is : GoMap InputDecl} {i : IndexDecl} (h : ∀ d, i = .wildcard d → lib.stat d.path ≠ .failed) :
    i.validate (lookable lib files) is = i.validate lib is := by
  cases i with
  | wildcard d =>
    have hd := h d rfl
    simp only [IndexDecl.validate, WildcardDecl.validate, Rodb.lookable, hd, and_false, if_false]
  | _ => rfl

/-- A configuration that would be accepted if its files could be looked at is accepted, or panics. -/
theorem loadConfig_sop {lib : ConfigLib} {p : ParsedConfig} (files : List String) (h : ∀ d, .wildcard d ∈ p.indexes → lib.stat d.path ≠ .failed) :
    SameOrPanic (loadConfig lib p) (loadConfig (lookable lib files) p) := by
  unfold loadConfig
  cases hc : newConfig p with
  | error e => exact sop_same _
  | ok c =>
    show SameOrPanic ((addDefaults c).validate lib) ((addDefaults c).validate (lookable lib files))
    refine sop_bind (sop_same _) (fun _ => sop_bind (sop_map (fun _ _ _ => InputDecl.sop _ _ _ _)) (fun _ => sop_bind (sop_map (fun k x hx => ?_)) (fun _ =>
      sop_bind (sop_map (fun _ _ _ => ServiceDecl.sop _ _ _ _)) (fun _ => sop_same _))))
    rw [IndexDecl.lookable]
    · exact sop_same _
    · rintro d rfl
      refine h d ?_
      simp only [newConfig, bind_ok, ok_inj] at hc
      obtain ⟨_, _, _, _, _, h3, _, _, _, _, rfl⟩ := hc
      have hv := (collectNames_ok (name := IndexDecl.name) (l := p.indexes) (m := [])).1 _ h3
      subst hv
      simp only [addDefaults, addDefault, List.nil_append] at hx
      split at hx
      · simp only [List.mem_map, Prod.mk.injEq] at hx
        obtain ⟨y, hy, _, rfl⟩ := hx
        exact hy
      · rename_i hn
        rw [mapSet_absent _ (mapGet_none_keys hn)] at hx
        simp only [List.mem_append, List.mem_map, List.mem_singleton, Prod.mk.injEq, reduceCtorEq, and_false, or_false] at hx
        obtain ⟨y, hy, _, rfl⟩ := hx
        exact hy

end Rodb
