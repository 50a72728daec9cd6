import Verif.Spec.MapBuild
import Verif.Proofs.MapNoop
/-
  Lemmas for C16: what building a map index meets first.
-/
namespace Rodb
open Spec

theorem first_unique {α : Type} {P : α → Prop} {a a' b b' : List α} {x x' : α} (h : a ++ x :: b = a' ++ x' :: b') (ha : ∀ y ∈ a, P y) (ha' : ∀ y ∈ a', P y)
    (hx : ¬ P x) (hx' : ¬ P x') : x = x' := by
  induction a generalizing a' with
  | nil =>
    cases a' with
    | nil => cases h; rfl
    | cons y a' => cases h; exact absurd (ha' _ (.head _)) hx
  | cons y a ih =>
    cases a' with
    | nil => cases h; exact absurd (ha _ (.head _)) hx'
    | cons y' a' =>
      rw [List.cons_append, List.cons_append, List.cons.injEq] at h
      exact ih h.2 (fun z hz => ha z (.tail _ hz)) (fun z hz => ha' z (.tail _ hz))

theorem Spec.LeadsToFlat.not_scalar {v : Value} (h : LeadsToFlat v) : ¬ Scalar v := by
  cases h <;> exact id

def Keys (props : List String) (index : GoMap MapPropertyIndex) : Prop := ∀ p ∈ props, ∃ m, mapGet index p = some m

theorem mapAddScalar_done {props : List String} {index : GoMap MapPropertyIndex} (hk : Keys props index) {p : String} (hp : p ∈ props) {v : Value} (hs : Scalar v) (pos : Int) :
    ∃ index', mapAddScalar index p v pos = .ok index' ∧ Keys props index' := by
  cases h : mapAddScalar index p v pos with
  | error e => exact absurd h (mapAddScalar_fails (hk p hp) hs)
  | ok index' => exact ⟨index', rfl, fun q hq => (mapAddScalar_keys h).2 q (hk q hq)⟩

theorem mapAddValue_done {props : List String} {index : GoMap MapPropertyIndex} (hk : Keys props index) {p : String} (hp : p ∈ props) {v : Value} (hs : Scalar v) (pos : Int) :
    ∃ index', mapAddValue index p v pos = .ok index' ∧ Keys props index' := by
  rw [mapAddValue_scalar hs]
  exact mapAddScalar_done hk hp hs pos

mutual
theorem mapAddValue_cases (props : List String) (p : String) (hp : p ∈ props) (pos : Int) (index : GoMap MapPropertyIndex) (hk : Keys props index) : ∀ (v : Value),
    (Scalar v ∧ ∃ index', mapAddValue index p v pos = .ok index' ∧ Keys props index') ∨
    (LeadsToFlat v ∧ ∃ msg, mapAddValue index p v pos = .error (.panic msg)) ∨
    (¬ Scalar v ∧ ¬ LeadsToFlat v ∧ ∃ msg, mapAddValue index p v pos = .error (.err msg))
  | .null => .inl ⟨trivial, mapAddValue_done (v := .null) hk hp trivial pos⟩
  | .bool x => .inl ⟨trivial, mapAddValue_done (v := .bool x) hk hp trivial pos⟩
  | .int x => .inl ⟨trivial, mapAddValue_done (v := .int x) hk hp trivial pos⟩
  | .float x => .inl ⟨trivial, mapAddValue_done (v := .float x) hk hp trivial pos⟩
  | .str x => .inl ⟨trivial, mapAddValue_done (v := .str x) hk hp trivial pos⟩
  | .obj _ => .inr (.inr ⟨id, (fun h => by cases h), _, rfl⟩)
  | .arr l => by
    right
    simp only [mapAddValue, bind, Except.bind]
    rcases mapAddValues_cases props p hp pos index hk l with ⟨h1, index', h2, _⟩ | ⟨⟨a, v, b, rfl, h1, h2⟩, msg, h3⟩ | ⟨⟨a, v, b, rfl, h1, h2, h3⟩, msg, h4⟩
    · rw [h2]
      exact .inl ⟨.flat h1, _, rfl⟩
    · rw [h3]
      exact .inl ⟨.inside h1 h2, _, rfl⟩
    · rw [h4]
      refine .inr ⟨id, fun h => ?_, _, rfl⟩
      generalize hl : a ++ v :: b = l at h
      cases h with
      | flat h => exact h2 (h v (by rw [← hl]; exact List.mem_append_right _ (.head _)))
      | inside g1 g2 =>
        have := first_unique hl h1 g1 h2 g2.not_scalar
        subst this
        exact h3 g2
theorem mapAddValues_cases (props : List String) (p : String) (hp : p ∈ props) (pos : Int) (index : GoMap MapPropertyIndex) (hk : Keys props index) : ∀ (l : List Value),
    ((∀ v ∈ l, Scalar v) ∧ ∃ index', mapAddValues index p l pos = .ok index' ∧ Keys props index') ∨
    ((∃ a v b, l = a ++ v :: b ∧ (∀ w ∈ a, Scalar w) ∧ LeadsToFlat v) ∧ ∃ msg, mapAddValues index p l pos = .error (.panic msg)) ∨
    ((∃ a v b, l = a ++ v :: b ∧ (∀ w ∈ a, Scalar w) ∧ ¬ Scalar v ∧ ¬ LeadsToFlat v) ∧ ∃ msg, mapAddValues index p l pos = .error (.err msg))
  | [] => .inl ⟨fun _ h => (by cases h), index, rfl, hk⟩
  | v :: l => by
    simp only [mapAddValues, bind, Except.bind]
    rcases mapAddValue_cases props p hp pos index hk v with ⟨h1, index', h2, h3⟩ | ⟨h1, msg, h2⟩ | ⟨h1, h2, msg, h3⟩
    · rw [h2]
      have hcons : ∀ {a : List Value}, (∀ w ∈ a, Scalar w) → ∀ w ∈ v :: a, Scalar w := fun ha w hw => by
        rcases List.mem_cons.1 hw with rfl | hw
        · exact h1
        · exact ha w hw
      rcases mapAddValues_cases props p hp pos index' h3 l with ⟨k1, k2⟩ | ⟨⟨a, w, b, rfl, k1, k2⟩, k3⟩ | ⟨⟨a, w, b, rfl, k1, k2⟩, k3⟩
      · exact .inl ⟨hcons k1, k2⟩
      · exact .inr (.inl ⟨⟨v :: a, w, b, rfl, hcons k1, k2⟩, k3⟩)
      · exact .inr (.inr ⟨⟨v :: a, w, b, rfl, hcons k1, k2⟩, k3⟩)
    · rw [h2]
      exact .inr (.inl ⟨⟨[], v, l, rfl, fun _ h => (by cases h), h1⟩, _, rfl⟩)
    · rw [h3]
      exact .inr (.inr ⟨⟨[], v, l, rfl, fun _ h => (by cases h), h1, h2⟩, _, rfl⟩)
end

def IsScalar (x : Res Value) : Prop := ∃ v, x = .ok v ∧ Scalar v

/-- What the values in the order in which they are read tell of the result. -/
def Met (l : List (Res Value)) (props : List String) (r : Res (GoMap MapPropertyIndex)) : Prop :=
  ((∀ x ∈ l, IsScalar x) ∧ ∃ index, r = .ok index ∧ Keys props index) ∨
  ((∃ a v b, l = a ++ .ok v :: b ∧ (∀ x ∈ a, IsScalar x) ∧ LeadsToFlat v) ∧ ∃ msg, r = .error (.panic msg)) ∨
  ((∃ a x b, l = a ++ x :: b ∧ (∀ y ∈ a, IsScalar y) ∧ ¬ IsScalar x ∧ (∀ v, x = .ok v → ¬ LeadsToFlat v)) ∧ ∃ msg, r = .error (.err msg))

theorem Met.append {l l' : List (Res Value)} {props : List String} {r : Res (GoMap MapPropertyIndex)} (h : ∀ x ∈ l, IsScalar x) (hm : Met l' props r) : Met (l ++ l') props r := by
  have hin : ∀ {a : List (Res Value)}, (∀ x ∈ a, IsScalar x) → ∀ x ∈ l ++ a, IsScalar x := fun ha x hx => by
    rcases List.mem_append.1 hx with hx | hx
    · exact h x hx
    · exact ha x hx
  rcases hm with ⟨h1, h2⟩ | ⟨⟨a, v, b, rfl, h1, h2⟩, h3⟩ | ⟨⟨a, x, b, rfl, h1, h2⟩, h3⟩
  · exact .inl ⟨hin h1, h2⟩
  · exact .inr (.inl ⟨⟨l ++ a, v, b, by rw [List.append_assoc], hin h1, h2⟩, h3⟩)
  · exact .inr (.inr ⟨⟨l ++ a, x, b, by rw [List.append_assoc], hin h1, h2⟩, h3⟩)

theorem mapIndexProperties_met {r : Rec} {all : List String} : ∀ (props : List String) (index : GoMap MapPropertyIndex), (∀ p ∈ props, p ∈ all) → Keys all index →
    (∀ p ∈ props, ∀ e, r.get p = .error e → IsError e) → Met (props.map r.get) all (mapIndexProperties r props index)
  | [], index, _, hk, _ => .inl ⟨fun _ h => (by cases h), index, rfl, hk⟩
  | p :: props, index, hsub, hk, he => by
    simp only [mapIndexProperties, bind, Except.bind, List.map_cons]
    cases hg : r.get p with
    | error e =>
      obtain ⟨msg, rfl⟩ := he p (.head _) e hg
      exact .inr (.inr ⟨⟨[], _, _, rfl, fun _ h => (by cases h), (fun ⟨v, h, _⟩ => by cases h), fun v h => (by cases h)⟩, _, rfl⟩)
    | ok v =>
      simp only
      rcases mapAddValue_cases all p (hsub p (.head _)) r.position index hk v with ⟨h1, index', h2, h3⟩ | ⟨h1, msg, h2⟩ | ⟨h1, h2, msg, h3⟩
      · rw [h2]
        exact Met.append (l := [.ok v]) (fun x hx => by cases List.mem_singleton.1 hx; exact ⟨v, rfl, h1⟩)
          (mapIndexProperties_met props index' (fun q hq => hsub q (.tail _ hq)) h3 (fun q hq => he q (.tail _ hq)))
      · rw [h2]
        exact .inr (.inl ⟨⟨[], v, _, rfl, fun _ h => (by cases h), h1⟩, _, rfl⟩)
      · rw [h3]
        exact .inr (.inr ⟨⟨[], _, _, rfl, fun _ h => (by cases h), (fun ⟨w, h, hs⟩ => by cases h; exact h1 hs), fun w h => (by cases h; exact h2)⟩, _, rfl⟩)

theorem Met.after {l l' : List (Res Value)} {props : List String} {r : Res (GoMap MapPropertyIndex)} {next : GoMap MapPropertyIndex → Res (GoMap MapPropertyIndex)}
    (h : Met l props r) (hn : ∀ index, Keys props index → Met l' props (next index)) : Met (l ++ l') props (r.bind next) := by
  rcases h with ⟨h1, index, rfl, h2⟩ | ⟨⟨a, v, b, rfl, h1, h2⟩, msg, rfl⟩ | ⟨⟨a, x, b, rfl, h1, h2⟩, msg, rfl⟩
  · exact Met.append h1 (hn index h2)
  · exact .inr (.inl ⟨⟨a, v, b ++ l', by rw [List.append_assoc]; rfl, h1, h2⟩, msg, rfl⟩)
  · exact .inr (.inr ⟨⟨a, x, b ++ l', by rw [List.append_assoc]; rfl, h1, h2⟩, msg, rfl⟩)

theorem mapIndexRecords_met {props : List String} : ∀ (rs : List (Res Rec)) (index : GoMap MapPropertyIndex), Keys props index → (∀ e, .error e ∈ rs → IsError e) →
    (∀ r, .ok r ∈ rs → ∀ p ∈ props, ∀ e, r.get p = .error e → IsError e) → Met (readInOrder rs props) props (mapIndexRecords props rs index)
  | [], index, hk, _, _ => .inl ⟨fun _ h => (by cases h), index, rfl, hk⟩
  | .error e :: rs, index, _, he, _ => by
    obtain ⟨msg, rfl⟩ := he e (.head _)
    exact .inr (.inr ⟨⟨[], _, _, rfl, fun _ h => (by cases h), (fun ⟨v, h, _⟩ => by cases h), fun v h => (by cases h)⟩, _, rfl⟩)
  | .ok r :: rs, index, hk, he, hr => by
    have h1 := mapIndexProperties_met (r := r) props index (fun _ h => h) hk (hr r (.head _))
    exact Met.after h1 (fun index' hk' => mapIndexRecords_met rs index' hk' (fun e h => he e (.tail _ h)) (fun r h => hr r (.tail _ h)))

end Rodb
