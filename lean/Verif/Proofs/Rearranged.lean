import Verif.Proofs.WellFormed
/-
  Helper lemmas: configurations whose outputs have their maps in other orders.
-/
namespace Rodb
open Spec

mutual
theorem Spec.Rearranged.refl : ∀ (r : Relationship), Rearranged r r
  | .mk _ _ _ _ _ l => .mk (Spec.RearrangedAll.refl l)
theorem Spec.RearrangedAll.refl : ∀ (l : List (String × Relationship)), RearrangedAll l l
  | [] => .nil
  | (_, r) :: rest => .cons (Spec.Rearranged.refl r) (Spec.RearrangedAll.refl rest)
end

mutual
theorem Spec.Rearranged.symm : ∀ {r r' : Relationship}, Rearranged r r' → Rearranged r' r
  | _, _, .mk h => .mk h.symm
theorem Spec.RearrangedAll.symm : ∀ {l l' : List (String × Relationship)}, RearrangedAll l l' → RearrangedAll l' l
  | _, _, .nil => .nil
  | _, _, .cons h t => .cons h.symm t.symm
  | _, _, .swap a b l => .swap b a l
  | _, _, .trans h t => .trans t.symm h.symm
end

mutual
theorem Spec.Rearranged.completed : ∀ {r r' : Relationship}, Rearranged r r' → Rearranged (completedRelationship r) (completedRelationship r')
  | _, _, .mk h => by rw [completedRelationship, completedRelationship]; exact .mk h.completed
theorem Spec.RearrangedAll.completed : ∀ {l l' : List (String × Relationship)}, RearrangedAll l l' → RearrangedAll (completedRelationships l) (completedRelationships l')
  | _, _, .nil => Spec.RearrangedAll.refl _
  | _, _, .cons h t => by rw [completedRelationships, completedRelationships]; exact .cons h.completed t.completed
  | _, _, .swap (_, _) (_, _) l => by rw [completedRelationships, completedRelationships, completedRelationships, completedRelationships]; exact .swap _ _ _
  | _, _, .trans h t => .trans h.completed t.completed
end

theorem Spec.Rearranged.trans {a b c : Relationship} (h1 : Rearranged a b) (h2 : Rearranged b c) : Rearranged a c := by
  cases h1 with
  | mk h1 => cases h2 with
    | mk h2 => exact .mk (.trans h1 h2)

mutual
/-- What is inside of one is, up to the order, inside of the other. -/
theorem Spec.Rearranged.inside : ∀ {r r' : Relationship}, Rearranged r r' → ∀ x ∈ relationshipWithNested r, ∃ x' ∈ relationshipWithNested r', Rearranged x x'
  | _, _, .mk h, x, hx => by
    rw [relationshipWithNested] at hx ⊢
    rcases List.mem_cons.1 hx with rfl | hx
    · exact ⟨_, .head _, .mk h⟩
    · obtain ⟨x', h1, h2⟩ := h.inside x hx
      exact ⟨x', .tail _ h1, h2⟩
theorem Spec.RearrangedAll.inside : ∀ {l l' : List (String × Relationship)}, RearrangedAll l l' → ∀ x ∈ relationshipsAll l, ∃ x' ∈ relationshipsAll l', Rearranged x x'
  | _, _, .nil, x, hx => by simp [relationshipsAll] at hx
  | _, _, .cons h t, x, hx => by
    rw [relationshipsAll] at hx ⊢
    rcases List.mem_append.1 hx with hx | hx
    · obtain ⟨x', h1, h2⟩ := h.inside x hx
      exact ⟨x', List.mem_append_left _ h1, h2⟩
    · obtain ⟨x', h1, h2⟩ := t.inside x hx
      exact ⟨x', List.mem_append_right _ h1, h2⟩
  | _, _, .swap (_, _) (_, _) l, x, hx => by
    simp only [relationshipsAll, List.mem_append] at hx ⊢
    refine ⟨x, ?_, Spec.Rearranged.refl x⟩
    rcases hx with hx | hx | hx
    · exact .inr (.inl hx)
    · exact .inl hx
    · exact .inr (.inr hx)
  | _, _, .trans h t, x, hx => by
    obtain ⟨x', h1, h2⟩ := h.inside x hx
    obtain ⟨x'', h3, h4⟩ := t.inside x' h1
    exact ⟨x'', h3, h2.trans h4⟩
end

theorem rearranged_wellFormed {p p' : ParsedConfig} (h1 : p'.parsers = p.parsers) (h2 : p'.inputs = p.inputs) (h3 : p'.indexes = p.indexes) {r r' : Relationship}
    (h : Rearranged r r') (hr : WellFormedRelationship p r) : WellFormedRelationship p' r' := by
  cases h with
  | mk h => simpa only [WellFormedRelationship, InputName, Searchable, IsIndex, h2, h3] using hr

theorem Spec.RearrangedOutput.symm {o o' : OutputDecl} (h : RearrangedOutput o o') : RearrangedOutput o' o := by
  cases h with
  | graphql n => exact .graphql n
  | array n a b c d e => exact .array n a.symm b.symm c.symm d.symm e.symm
  | object n a d e => exact .object n a.symm d.symm e.symm

theorem Spec.RearrangedOutput.name {o o' : OutputDecl} (h : RearrangedOutput o o') : o.name = o'.name := by cases h <;> rfl

theorem Spec.RearrangedOutput.completed {o o' : OutputDecl} (h : RearrangedOutput o o') : RearrangedOutput (completedOutput o) (completedOutput o') := by
  cases h with
  | graphql n => exact .graphql n
  | array n a b c d e => exact .array n a (by rw [b]) (by rw [c]) (d.map _) e.completed
  | object n a d e => exact .object n a (d.map _) e.completed

theorem Spec.RearrangedOutput.wellFormed {p p' : ParsedConfig} (h1 : p'.parsers = p.parsers) (h2 : p'.inputs = p.inputs) (h3 : p'.indexes = p.indexes) {o o' : OutputDecl}
    (h : RearrangedOutput o o') (ho : WellFormedOutput p o) : WellFormedOutput p' o' := by
  have hrel : ∀ {l l' : List (String × Relationship)}, RearrangedAll l l' → (∀ r ∈ relationshipsAll l, WellFormedRelationship p r) →
      ∀ r ∈ relationshipsAll l', WellFormedRelationship p' r := by
    intro l l' hl hw r hr
    obtain ⟨x, hx, hrx⟩ := hl.symm.inside r hr
    exact rearranged_wellFormed h1 h2 h3 hrx.symm (hw x hx)
  have hpar : ∀ input param, WellFormedParameter p input param → WellFormedParameter p' input param := by
    intro input param hp
    simpa only [WellFormedParameter, Searchable, IsIndex, IsParser, h1, h3] using hp
  have hinput : ∀ n, InputName p n → InputName p' n := by
    intro n hn
    simpa only [InputName, h2] using hn
  cases h with
  | graphql n => trivial
  | array n a b c d e =>
    obtain ⟨w1, w2, w3, w4, w5⟩ := ho
    refine ⟨a ▸ w1, hinput _ (a ▸ w2), b ▸ w3, fun name param hm => ?_, hrel e w5⟩
    obtain ⟨v1, v2, v3⟩ := w4 name param (d.mem_iff.2 hm)
    exact ⟨hpar _ _ (a ▸ v1), b ▸ v2, c ▸ v3⟩
  | object n a d e =>
    obtain ⟨w1, w2, w3, w4, w5⟩ := ho
    refine ⟨a ▸ w1, hinput _ (a ▸ w2), fun hn => w3 ?_, fun name param hm => hpar _ _ (a ▸ w4 name param (d.mem_iff.2 hm)), hrel e w5⟩
    rw [hn] at d
    exact d.eq_nil

theorem Spec.RearrangedOutputs.symm {l l' : List OutputDecl} (h : RearrangedOutputs l l') : RearrangedOutputs l' l := by
  induction h with
  | nil => exact .nil
  | cons h _ ih => exact .cons h.symm ih

theorem Spec.RearrangedOutputs.names {l l' : List OutputDecl} (h : RearrangedOutputs l l') : l.map OutputDecl.name = l'.map OutputDecl.name := by
  induction h with
  | nil => rfl
  | cons h _ ih => simp only [List.map_cons, h.name, ih]

theorem Spec.RearrangedOutputs.mem {l l' : List OutputDecl} (h : RearrangedOutputs l l') {o : OutputDecl} (ho : o ∈ l) : ∃ o' ∈ l', RearrangedOutput o o' := by
  induction h with
  | nil => cases ho
  | cons h _ ih =>
    rcases List.mem_cons.1 ho with rfl | ho
    · exact ⟨_, .head _, h⟩
    · obtain ⟨o', h1, h2⟩ := ih ho
      exact ⟨o', .tail _ h1, h2⟩

theorem wellFormed_rearranged {lib : ConfigLib} {p : ParsedConfig} {outputs : List OutputDecl} (h : RearrangedOutputs p.outputs outputs) (hw : WellFormed lib p) :
    WellFormed lib { p with outputs := outputs } where
  parserNames := hw.parserNames
  inputNames := hw.inputNames
  indexNames := hw.indexNames
  serviceNames := hw.serviceNames
  outputNames := h.names ▸ hw.outputNames
  parsers := hw.parsers
  inputs := hw.inputs
  indexes := hw.indexes
  services := by
    intro s hs
    obtain ⟨w1, w2, w3, w4, w5, w6⟩ := hw.services s hs
    refine ⟨w1, w2, w3, w4, w5, fun r hr => ⟨(w6 r hr).1, ?_⟩⟩
    obtain ⟨x, hx, hn⟩ := (w6 r hr).2
    obtain ⟨x', hx', hxx⟩ := h.mem hx
    exact ⟨x', hx', hxx.name ▸ hn⟩
  outputs := by
    intro o ho
    obtain ⟨x, hx, hox⟩ := h.symm.mem ho
    exact hox.symm.wellFormed rfl rfl rfl (hw.outputs x hx)

theorem eq_of_names {l : List OutputDecl} (h : (l.map OutputDecl.name).Nodup) {a b : OutputDecl} (ha : a ∈ l) (hb : b ∈ l) (hn : a.name = b.name) : a = b := by
  induction l with
  | nil => cases ha
  | cons x l ih =>
    rw [List.map_cons, List.nodup_cons] at h
    rcases List.mem_cons.1 ha with ha1 | ha1 <;> rcases List.mem_cons.1 hb with hb1 | hb1
    · rw [ha1, hb1]
    · exact (h.1 (ha1 ▸ hn ▸ List.mem_map_of_mem hb1)).elim
    · exact (h.1 (hb1 ▸ hn ▸ List.mem_map_of_mem ha1)).elim
    · exact ih h.2 ha1 hb1

end Rodb
