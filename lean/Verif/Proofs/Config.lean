import Verif.Spec.Config
import Verif.Proofs.Conj
import Verif.Proofs.Output
import Verif.Proofs.Parser
/-
  Lemmas about configurations.
-/
namespace Rodb
open Spec

/-! ### Results -/

theorem bind_ok {α β : Type} {x : Res α} {f : α → Res β} {b : β} : (x >>= f) = .ok b ↔ ∃ a, x = .ok a ∧ f a = .ok b := by
  cases x with
  | error e => exact ⟨fun h => (by cases h), fun ⟨_, h, _⟩ => (by cases h)⟩
  | ok a => exact ⟨fun h => ⟨a, rfl, h⟩, fun ⟨_, h, h'⟩ => (by cases h; exact h')⟩

theorem require_ok {c : Bool} {m : String} {u : Unit} : require c m = .ok u ↔ c = true := by
  cases c <;> simp [require]

theorem require_bind {β : Type} {c : Bool} {m : String} {f : Unit → Res β} {b : β} :
    (require c m >>= f) = .ok b ↔ c = true ∧ f () = .ok b := by
  rw [bind_ok]
  exact ⟨fun ⟨u, h, h'⟩ => ⟨require_ok.1 h, h'⟩, fun ⟨h, h'⟩ => ⟨(), require_ok.2 h, h'⟩⟩

theorem checkFile_ok {lib : ConfigLib} {path : String} {u : Unit} : checkFile lib path = .ok u ↔ lib.stat path = .file := by
  unfold checkFile
  cases lib.stat path <;> simp

theorem ok_inj {α : Type} {a b : α} : (Except.ok a : Res α) = .ok b ↔ a = b := ⟨fun h => (by cases h; rfl), fun h => by rw [h]⟩

/-! ### Maps -/

theorem mapGet_nodup_mem {α : Type} {m : GoMap α} {k : String} {v : α} (hn : (m.map (·.1)).Nodup) (h : (k, v) ∈ m) : mapGet m k = some v := by
  induction m with
  | nil => cases h
  | cons x m ih =>
    obtain ⟨a, b⟩ := x
    simp only [List.map_cons, List.nodup_cons] at hn
    rcases List.mem_cons.1 h with h | h
    · cases h; simp [mapGet]
    · rw [mapGet, if_neg (fun e => hn.1 (by rw [e]; exact List.mem_map_of_mem h)), ih hn.2 h]

theorem mapGet_perm {α : Type} {a b : GoMap α} (h : a.Perm b) (hn : (a.map (·.1)).Nodup) (k : String) : mapGet a k = mapGet b k := by
  have hn' : (b.map (·.1)).Nodup := (h.map _).nodup_iff.1 hn
  cases ha : mapGet a k with
  | some v => exact (mapGet_nodup_mem hn' (h.subset (mapGet_mem ha))).symm
  | none =>
    cases hb : mapGet b k with
    | none => rfl
    | some v => exact (mapGet_none_not_mem ha v (h.symm.subset (mapGet_mem hb))).elim

theorem mapGet_of_not_key {α : Type} {m : GoMap α} {k : String} (h : k ∉ m.map (·.1)) : mapGet m k = none := by
  cases hm : mapGet m k with
  | none => rfl
  | some v => exact (h (List.mem_map_of_mem (mapGet_mem hm))).elim

theorem validateMap_keys {α : Type} {f : String → α → Res α} : ∀ {m m' : GoMap α}, validateMap f m = .ok m' → m'.map (·.1) = m.map (·.1)
  | [], _, h => by cases h; rfl
  | (k, x) :: rest, _, h => by
    simp only [validateMap, bind_ok] at h
    obtain ⟨y, _, r, hr, h⟩ := h
    cases h
    simp [validateMap_keys hr]

theorem validateMap_mem {α : Type} {f : String → α → Res α} : ∀ {m m' : GoMap α}, validateMap f m = .ok m' → ∀ {k y}, (k, y) ∈ m' →
    ∃ x, (k, x) ∈ m ∧ f k x = .ok y
  | [], _, h, _, _, hy => by cases h; cases hy
  | (k', x) :: rest, _, h, k, y, hy => by
    simp only [validateMap, bind_ok] at h
    obtain ⟨y', h1, r, hr, h⟩ := h
    cases h
    rcases List.mem_cons.1 hy with hy | hy
    · cases hy; exact ⟨x, List.mem_cons_self, h1⟩
    · obtain ⟨x', h2, h3⟩ := validateMap_mem hr hy
      exact ⟨x', List.mem_cons_of_mem _ h2, h3⟩

theorem validateMap_get {α : Type} {f : String → α → Res α} : ∀ {m m' : GoMap α}, validateMap f m = .ok m' → ∀ {k x}, mapGet m k = some x →
    ∃ y, mapGet m' k = some y ∧ f k x = .ok y
  | [], _, h, _, _, hx => by cases hx
  | (k', x') :: rest, _, h, k, x, hx => by
    simp only [validateMap, bind_ok] at h
    obtain ⟨y', h1, r, hr, h⟩ := h
    cases h
    by_cases hk : k' = k
    · subst hk
      simp only [mapGet, if_pos] at hx ⊢
      cases hx
      exact ⟨y', rfl, h1⟩
    · simp only [mapGet, if_neg hk] at hx ⊢
      exact validateMap_get hr hx

theorem validateMap_ok {α : Type} {f : String → α → Res α} : ∀ {m : GoMap α}, (∃ m', validateMap f m = .ok m') ↔ ∀ k x, (k, x) ∈ m → ∃ y, f k x = .ok y
  | [] => ⟨fun _ _ _ h => (by cases h), fun _ => ⟨[], rfl⟩⟩
  | (k', x') :: rest => by
    constructor
    · rintro ⟨m', h⟩ k x hx
      simp only [validateMap, bind_ok] at h
      obtain ⟨y', h1, r, hr, _⟩ := h
      rcases List.mem_cons.1 hx with hx | hx
      · cases hx; exact ⟨y', h1⟩
      · exact validateMap_ok.1 ⟨r, hr⟩ k x hx
    · intro h
      obtain ⟨y, hy⟩ := h k' x' List.mem_cons_self
      obtain ⟨r, hr⟩ := validateMap_ok.2 (fun k x hx => h k x (List.mem_cons_of_mem _ hx))
      exact ⟨(k', y) :: r, by simp [validateMap, bind_ok, hy, hr]⟩

theorem validateList_mem {α : Type} {f : α → Res α} {name : α → String} {message : String} : ∀ {seen : List String} {l l' : List α},
    validateList f name message seen l = .ok l' → ∀ {y}, y ∈ l' → ∃ x ∈ l, f x = .ok y
  | _, [], _, h, _, hy => by cases h; cases hy
  | seen, x :: rest, _, h, y, hy => by
    simp only [validateList, bind_ok, require_ok, exists_const] at h
    obtain ⟨x', h1, _, r, hr, h⟩ := h
    cases h
    rcases List.mem_cons.1 hy with rfl | hy
    · exact ⟨x, List.mem_cons_self, h1⟩
    · obtain ⟨z, h2, h3⟩ := validateList_mem hr hy
      exact ⟨z, List.mem_cons_of_mem _ h2, h3⟩

theorem validateList_names {α : Type} {f : α → Res α} {name : α → String} {message : String} : ∀ {seen : List String} {l l' : List α},
    validateList f name message seen l = .ok l' → (l'.map name).Nodup ∧ ∀ x ∈ l', name x ∉ seen
  | _, [], _, h => by cases h; simp
  | seen, x :: rest, _, h => by
    simp only [validateList, bind_ok, require_ok, exists_const] at h
    obtain ⟨x', h1, hs, r, hr, h⟩ := h
    cases h
    obtain ⟨h2, h3⟩ := validateList_names hr
    simp only [Bool.not_eq_true', List.contains_eq_mem, decide_eq_false_iff_not] at hs
    refine ⟨?_, ?_⟩
    · simp only [List.map_cons, List.nodup_cons, List.mem_map, not_exists, not_and]
      exact ⟨fun y hy e => h3 y hy (by rw [e]; exact List.mem_cons_self), h2⟩
    · intro y hy
      rcases List.mem_cons.1 hy with rfl | hy
      · exact hs
      · exact fun h => h3 y hy (List.mem_cons_of_mem _ h)

/-- Validating plain names: the same list. -/
theorem validateList_id {name : String → String} {message : String} : ∀ {seen : List String} {l l' : List String},
    validateList .ok name message seen l = .ok l' → l' = l
  | _, [], _, h => by cases h; rfl
  | seen, x :: rest, _, h => by
    simp only [validateList, bind_ok, require_ok, exists_const, ok_inj] at h
    obtain ⟨x', rfl, _, r, hr, rfl⟩ := h
    rw [validateList_id hr]

/-! ### Names and defaults -/

theorem collectNames_ok {α : Type} {name : α → String} : ∀ {l : List α} {m : GoMap α},
    (∀ m', collect name l m = .ok m' → m' = m ++ l.map (fun x => (name x, x))) ∧
    ((∃ m', collect name l m = .ok m') ↔ (l.map name).Nodup ∧ ∀ x ∈ l, name x ∉ m.map (·.1))
  | [], m => by
    refine ⟨fun m' h => ?_, ⟨fun _ => (by simp), fun _ => ⟨m, rfl⟩⟩⟩
    cases h; simp
  | x :: rest, m => by
    cases hm : mapGet m (name x) with
    | some y =>
      have hbad : ¬ ∃ m', collect name (x :: rest) m = .ok m' := by
        rintro ⟨m', h⟩; simp [collect, hm] at h
      refine ⟨fun m' h => (hbad ⟨m', h⟩).elim, ⟨fun h => (hbad h).elim, fun h => ?_⟩⟩
      exact (h.2 x List.mem_cons_self (List.mem_map_of_mem (mapGet_mem hm))).elim
    | none =>
      have hk := mapGet_none_keys hm
      have hs : mapSet m (name x) x = m ++ [(name x, x)] := mapSet_absent x hk
      have he : collect name (x :: rest) m = collect name rest (m ++ [(name x, x)]) := by simp [collect, hm, hs]
      obtain ⟨h1, h2⟩ := collectNames_ok (name := name) (l := rest) (m := m ++ [(name x, x)])
      rw [he]
      refine ⟨fun m' h => ?_, ?_⟩
      · rw [h1 m' h]; simp
      · rw [h2]
        simp only [List.map_append, List.map_cons, List.map_nil, List.mem_append, not_or, List.nodup_cons, List.mem_cons,
          forall_eq_or_imp, List.mem_map, List.not_mem_nil, or_false]
        constructor
        · rintro ⟨ha, hb⟩
          refine ⟨⟨?_, ha⟩, ?_, ?_⟩
          · rintro ⟨y, hy, e⟩; exact (hb y hy).2 e
          · intro hc; exact hk (List.mem_map.2 hc)
          · intro y hy hc
            exact (hb y hy).1 hc
        · rintro ⟨⟨ha, hb⟩, hc, hd⟩
          exact ⟨hb, fun y hy => ⟨fun h => hd y hy h, fun e => ha ⟨y, hy, e⟩⟩⟩

theorem mapGet_named {α : Type} {name : α → String} {l : List α} (hn : (l.map name).Nodup) (n : String) (x : α) :
    mapGet (l.map (fun x => (name x, x))) n = some x ↔ x ∈ l ∧ name x = n := by
  have hkeys : (l.map (fun x => (name x, x))).map (·.1) = l.map name := by simp [Function.comp_def]
  constructor
  · intro h
    obtain ⟨y, hy, e⟩ := List.mem_map.1 (mapGet_mem h)
    cases e; exact ⟨hy, rfl⟩
  · rintro ⟨hx, rfl⟩
    exact mapGet_nodup_mem (by rw [hkeys]; exact hn) (List.mem_map_of_mem (f := fun x => (name x, x)) hx)

/-- Adding one default. -/
theorem addDefault_get {α : Type} {name : α → String} {declared defaults : List α} {m : GoMap α} {d : α}
    (h : ∀ n x, mapGet m n = some x ↔ IsComponent name declared defaults n x) (hd : ∀ y ∈ defaults, name y ≠ name d) (n : String) (x : α) :
    mapGet (addDefault name m d) n = some x ↔ IsComponent name declared (defaults ++ [d]) n x := by
  unfold addDefault
  cases hm : mapGet m (name d) with
  | some y =>
    simp only [h, IsComponent, List.mem_append, List.mem_singleton]
    constructor
    · rintro (h1 | ⟨h1, h2, h3⟩)
      · exact .inl h1
      · exact .inr ⟨h1, .inl h2, h3⟩
    · rintro (h1 | ⟨h1, h2 | h2, h3⟩)
      · exact .inl h1
      · exact .inr ⟨h1, h2, h3⟩
      · subst h2
        rcases (h _ _).1 hm with ⟨hy, hy'⟩ | ⟨_, hy, hy'⟩
        · exact (h1 y hy (hy'.trans h3)).elim
        · exact (hd y hy hy').elim
  | none =>
    simp only [mapGet_mapSet, IsComponent, List.mem_append, List.mem_singleton]
    have hnone : ∀ y ∈ declared, name y ≠ name d := by
      intro y hy e
      have := (h (name d) y).2 (.inl ⟨hy, e⟩)
      rw [hm] at this; cases this
    by_cases hn : name d = n
    · subst hn
      simp only [if_true, Option.some.injEq]
      constructor
      · rintro rfl
        exact .inr ⟨hnone, .inr rfl, rfl⟩
      · rintro (⟨h1, h2⟩ | ⟨_, h2 | h2, h3⟩)
        · exact (hnone x h1 h2).elim
        · exact (hd x h2 h3).elim
        · exact h2.symm
    · rw [if_neg hn, h]
      simp only [IsComponent]
      constructor
      · rintro (h1 | ⟨h1, h2, h3⟩)
        · exact .inl h1
        · exact .inr ⟨h1, .inl h2, h3⟩
      · rintro (h1 | ⟨h1, h2 | h2, h3⟩)
        · exact .inl h1
        · exact .inr ⟨h1, h2, h3⟩
        · subst h2; exact (hn h3).elim

theorem addDefaults_get {α : Type} {name : α → String} {declared : List α} : ∀ (defaults done : List α) (m : GoMap α),
    (∀ n x, mapGet m n = some x ↔ IsComponent name declared done n x) → ((done ++ defaults).map name).Nodup → ∀ n x,
    mapGet (defaults.foldl (addDefault name) m) n = some x ↔ IsComponent name declared (done ++ defaults) n x
  | [], done, m, h, _, n, x => by simpa using h n x
  | d :: rest, done, m, h, hn, n, x => by
    have hd : ∀ y ∈ done, name y ≠ name d := by
      intro y hy e
      rw [List.map_append, List.nodup_append] at hn
      exact hn.2.2 _ (List.mem_map_of_mem hy) _ (by simp) e
    have := addDefaults_get rest (done ++ [d]) (addDefault name m d) (fun n x => addDefault_get h hd n x)
      (by rw [List.append_assoc]; exact hn) n x
    rw [List.append_assoc] at this
    exact this

theorem addDefault_keys {α : Type} {name : α → String} {m : GoMap α} (d : α) (hn : (m.map (·.1)).Nodup) :
    ((addDefault name m d).map (·.1)).Nodup := by
  unfold addDefault
  cases hm : mapGet m (name d) with
  | some y => exact hn
  | none =>
    have hk := mapGet_none_keys hm
    simp only [mapSet_absent d hk, List.map_append, List.map_cons, List.map_nil]
    rw [List.nodup_append]
    refine ⟨hn, by simp, ?_⟩
    intro a ha b hb e
    rw [List.mem_singleton.1 hb] at e
    exact hk (e ▸ ha)

theorem addDefault_mem {α : Type} {name : α → String} {m : GoMap α} {d : α} {k : String} {x : α} (h : (k, x) ∈ addDefault name m d) :
    (k, x) ∈ m ∨ (k = name d ∧ x = d) := by
  unfold addDefault at h
  cases hm : mapGet m (name d) with
  | some y => rw [hm] at h; exact .inl h
  | none =>
    rw [hm] at h
    simp only [mapSet_absent d (mapGet_none_keys hm), List.mem_append, List.mem_singleton, Prod.mk.injEq] at h
    exact h

theorem foldDefaults_keys {α : Type} {name : α → String} : ∀ (defaults : List α) {m : GoMap α}, (m.map (·.1)).Nodup →
    ((defaults.foldl (addDefault name) m).map (·.1)).Nodup
  | [], _, hn => hn
  | d :: rest, _, hn => foldDefaults_keys rest (addDefault_keys d hn)

theorem foldDefaults_mem {α : Type} {name : α → String} {k : String} {x : α} : ∀ (defaults : List α) {m : GoMap α},
    (k, x) ∈ defaults.foldl (addDefault name) m → (k, x) ∈ m ∨ (k = name x ∧ x ∈ defaults)
  | [], _, h => .inl h
  | d :: rest, m, h => by
    rcases foldDefaults_mem rest h with h | h
    · rcases addDefault_mem h with h | ⟨h1, h2⟩
      · exact .inl h
      · subst h2; exact .inr ⟨h1, List.mem_cons_self⟩
    · exact .inr ⟨h.1, List.mem_cons_of_mem _ h.2⟩

/-- What `NewConfigFromParsedConfig` gives. -/
theorem newConfig_ok (p : ParsedConfig) :
    (∀ c, newConfig p = .ok c → c =
      { parsers := p.parsers.map (fun x => (x.name, x)), inputs := p.inputs.map (fun x => (x.name, x)),
        indexes := p.indexes.map (fun x => (x.name, x)), services := p.services.map (fun x => (x.name, x)),
        outputs := p.outputs.map (fun x => (x.name, x)) }) ∧
    ((∃ c, newConfig p = .ok c) ↔ DifferentNames ParserDecl.name p.parsers ∧ DifferentNames InputDecl.name p.inputs ∧
      DifferentNames IndexDecl.name p.indexes ∧ DifferentNames ServiceDecl.name p.services ∧ DifferentNames OutputDecl.name p.outputs) := by
  have key : ∀ {α : Type} (name : α → String) (l : List α), (∃ m', collect name l [] = .ok m') ↔ DifferentNames name l := by
    intro α name l
    rw [(collectNames_ok (name := name) (l := l) (m := [])).2]
    simp [DifferentNames]
  have val : ∀ {α : Type} (name : α → String) (l : List α) m', collect name l [] = .ok m' → m' = l.map (fun x => (name x, x)) := by
    intro α name l m' h
    simpa using (collectNames_ok (name := name) (l := l) (m := [])).1 m' h
  constructor
  · intro c h
    simp only [newConfig, bind_ok, ok_inj] at h
    obtain ⟨a, ha, b, hb, d, hd, e, he, f, hf, rfl⟩ := h
    rw [val _ _ _ ha, val _ _ _ hb, val _ _ _ hd, val _ _ _ he, val _ _ _ hf]
  · simp only [newConfig, bind_ok, ok_inj, ← key]
    constructor
    · rintro ⟨c, a, ha, b, hb, d, hd, e, he, f, hf, rfl⟩
      exact ⟨⟨a, ha⟩, ⟨b, hb⟩, ⟨d, hd⟩, ⟨e, he⟩, ⟨f, hf⟩⟩
    · rintro ⟨⟨a, ha⟩, ⟨b, hb⟩, ⟨d, hd⟩, ⟨e, he⟩, ⟨f, hf⟩⟩
      exact ⟨_, a, ha, b, hb, d, hd, e, he, f, hf, rfl⟩

/-! ### Validation keeps what the other components look at -/

theorem ParserDecl.validate_ok {lib : ConfigLib} {ps : GoMap ParserDecl} {p q : ParserDecl} (h : p.validate lib ps = .ok q) :
    q.name = p.name ∧ p.name ≠ "" ∧ q.primitive = p.primitive ∧
    (∀ t f, q.kind = .boolean t f → t ≠ [] ∧ f ≠ []) ∧ (∀ s i, q.kind = .float s i → s ≠ "") ∧
    (∀ d r parser, q.kind = .split d r parser → d ≠ none ∧ Known ps parser) := by
  obtain ⟨name, kind⟩ := p
  cases kind with
  | string c =>
    simp only [ParserDecl.validate, bind_ok, require_ok, exists_const, ok_inj, decide_eq_true_eq] at h
    obtain ⟨h1, rfl⟩ := h
    exact ⟨rfl, h1, rfl, fun _ _ h => (by cases h), fun _ _ h => (by cases h), fun _ _ _ h => (by cases h)⟩
  | integer c =>
    simp only [ParserDecl.validate, bind_ok, require_ok, exists_const, ok_inj, decide_eq_true_eq] at h
    obtain ⟨h1, rfl⟩ := h
    exact ⟨rfl, h1, rfl, fun _ _ h => (by cases h), fun _ _ h => (by cases h), fun _ _ _ h => (by cases h)⟩
  | json =>
    simp only [ParserDecl.validate, bind_ok, require_ok, exists_const, ok_inj, decide_eq_true_eq] at h
    obtain ⟨h1, rfl⟩ := h
    exact ⟨rfl, h1, rfl, fun _ _ h => (by cases h), fun _ _ h => (by cases h), fun _ _ _ h => (by cases h)⟩
  | float s i =>
    simp only [ParserDecl.validate, bind_ok, require_ok, exists_const, ok_inj, decide_eq_true_eq] at h
    obtain ⟨h1, h2, rfl⟩ := h
    exact ⟨rfl, h1, rfl, fun _ _ h => (by cases h), fun _ _ h => (by cases h; exact h2), fun _ _ _ h => (by cases h)⟩
  | boolean t f =>
    simp only [ParserDecl.validate, bind_ok, require_ok, exists_const, ok_inj, decide_eq_true_eq, Bool.not_eq_true', List.isEmpty_eq_false_iff] at h
    obtain ⟨h1, h2, h3, rfl⟩ := h
    exact ⟨rfl, h1, rfl, fun _ _ h => (by cases h; exact ⟨h2, h3⟩), fun _ _ h => (by cases h), fun _ _ _ h => (by cases h)⟩
  | split d r parser =>
    cases d with
    | none =>
      simp only [ParserDecl.validate, bind_ok, require_ok, exists_const] at h
      exact (by cases h.2)
    | some d =>
      simp only [ParserDecl.validate, bind_ok, require_ok, exists_const, ok_inj, decide_eq_true_eq] at h
      obtain ⟨h1, h2, h3, rfl⟩ := h
      refine ⟨rfl, h1, rfl, fun _ _ h => (by cases h), fun _ _ h => (by cases h), fun _ _ _ h => ?_⟩
      cases h
      exact ⟨by simp, Option.isSome_iff_exists.1 h3⟩

theorem ColumnDecl.validate_ok {ps : GoMap ParserDecl} {p q : ColumnDecl} (h : p.validate ps = .ok q) :
    q.name = p.name ∧ p.name ≠ "" ∧ Known ps q.parser := by
  simp only [ColumnDecl.validate, bind_ok, require_ok, exists_const, ok_inj, decide_eq_true_eq] at h
  obtain ⟨h1, h2, rfl⟩ := h
  exact ⟨rfl, h1, Option.isSome_iff_exists.1 h2⟩

theorem CsvDecl.validate_ok {lib : ConfigLib} {ps : GoMap ParserDecl} {p q : CsvDecl} (h : p.validate lib ps = .ok q) :
    q.name = p.name ∧ p.name ≠ "" ∧ q.path = p.path ∧ lib.stat p.path = .file ∧ (∀ c ∈ q.columns, Known ps c.parser) ∧
    (q.columns.map ColumnDecl.name).Nodup := by
  have key : ∀ {b : Bool} {x y : Res Unit} {r : Res CsvDecl}, (if b = true then x >>= fun _ => r else y >>= fun _ => r) = .ok q → r = .ok q := by
    intro b x y r h
    split at h
    · rw [bind_ok] at h; obtain ⟨_, _, h⟩ := h; exact h
    · rw [bind_ok] at h; obtain ⟨_, _, h⟩ := h; exact h
  simp only [CsvDecl.validate, bind_ok, require_ok, exists_const, decide_eq_true_eq] at h
  obtain ⟨h1, h⟩ := h
  have h2 : lib.stat p.path = .file ∧ ∃ columns, validateList (ColumnDecl.validate ps) ColumnDecl.name "Column names must be unique." [] p.columns = .ok columns ∧
      q = { p with dieOnInputChange := some (p.dieOnInputChange.getD true), delimiter := if p.delimiter = "" then "," else p.delimiter, columns := columns } := by
    split at h <;> simp only [bind_ok, require_ok, checkFile_ok, exists_const, ok_inj] at h <;>
      · obtain ⟨_, h2, _, columns, h3, rfl⟩ := h
        exact ⟨h2, columns, h3, rfl⟩
  obtain ⟨h2, columns, h3, rfl⟩ := h2
  refine ⟨rfl, h1, rfl, h2, fun c hc => ?_, (validateList_names h3).1⟩
  obtain ⟨c', _, hc'⟩ := validateList_mem h3 hc
  exact (ColumnDecl.validate_ok hc').2.2

mutual
theorem XmlPropDecl.validate_known {lib : ConfigLib} {ps : GoMap ParserDecl} {b : Bool} : ∀ {p q : XmlPropDecl}, p.validate lib ps b = .ok q →
    ∀ name parser xpath items properties, .mk name "primitive" parser xpath items properties ∈ xmlWithNested q → Known ps parser
  | .mk name type parser xpath items properties, q, h => by
    simp only [XmlPropDecl.validate, bind_ok, require_ok, exists_const] at h
    obtain ⟨_, _, h⟩ := h
    generalize (if type = "" then "primitive" else type) = t at h
    intro name' parser' xpath' items' properties' hq
    split at h
    · rename_i ht
      simp only [bind_ok, require_ok, exists_const, ok_inj, Option.isNone_iff_eq_none, List.isEmpty_iff] at h
      obtain ⟨h1, h2, h3, rfl⟩ := h
      subst h2 h3
      simp only [xmlWithNested, xmlItems, xmlAll, List.append_nil, List.mem_singleton, XmlPropDecl.mk.injEq] at hq
      rw [hq.2.2.1]
      exact Option.isSome_iff_exists.1 h1
    · rename_i ht
      split at h
      · simp only [bind_ok, require_ok, exists_const, ok_inj, List.isEmpty_iff] at h
        obtain ⟨_, h1, items2, h2, rfl⟩ := h
        subst h1
        simp only [xmlWithNested, xmlAll, List.append_nil, List.mem_cons, XmlPropDecl.mk.injEq] at hq
        rcases hq with hq | hq
        · exact (ht hq.2.1.symm).elim
        · exact validateXmlItems_known h2 _ _ _ _ _ hq
      · split at h
        · simp only [bind_ok, require_ok, exists_const, ok_inj, Option.isNone_iff_eq_none] at h
          obtain ⟨_, h1, _, properties2, h2, rfl⟩ := h
          subst h1
          simp only [xmlWithNested, xmlItems, List.nil_append, List.mem_cons, XmlPropDecl.mk.injEq] at hq
          rcases hq with hq | hq
          · exact (ht hq.2.1.symm).elim
          · exact validateXmlProperties_known h2 _ _ _ _ _ hq
        · cases h
theorem validateXmlItems_known {lib : ConfigLib} {ps : GoMap ParserDecl} : ∀ {i j : Option XmlPropDecl}, validateXmlItems lib ps i = .ok j →
    ∀ name parser xpath items properties, .mk name "primitive" parser xpath items properties ∈ xmlItems j → Known ps parser
  | none, j, h => by simp [validateXmlItems] at h
  | some p, j, h => by
    simp only [validateXmlItems, bind_ok, ok_inj] at h
    obtain ⟨q, hq, rfl⟩ := h
    exact XmlPropDecl.validate_known hq
theorem validateXmlProperties_known {lib : ConfigLib} {ps : GoMap ParserDecl} : ∀ {seen : List String} {l l' : List XmlPropDecl},
    validateXmlProperties lib ps seen l = .ok l' →
    ∀ name parser xpath items properties, .mk name "primitive" parser xpath items properties ∈ xmlAll l' → Known ps parser
  | _, [], _, h => by
    simp only [validateXmlProperties, ok_inj] at h
    subst h
    intro _ _ _ _ _ hq
    simp [xmlAll] at hq
  | seen, p :: rest, _, h => by
    simp only [validateXmlProperties, bind_ok, require_ok, exists_const, ok_inj] at h
    obtain ⟨q, hq, _, r, hr, rfl⟩ := h
    intro _ _ _ _ _ hm
    simp only [xmlAll, List.mem_append] at hm
    rcases hm with hm | hm
    · exact XmlPropDecl.validate_known hq _ _ _ _ _ hm
    · exact validateXmlProperties_known hr _ _ _ _ _ hm
end

theorem XmlDecl.validate_ok {lib : ConfigLib} {ps : GoMap ParserDecl} {p q : XmlDecl} (h : p.validate lib ps = .ok q) :
    q.name = p.name ∧ p.name ≠ "" ∧ q.path = p.path ∧ lib.stat p.path = .file ∧
    ∀ name parser xpath items properties, .mk name "primitive" parser xpath items properties ∈ xmlAll q.properties → Known ps parser := by
  simp only [XmlDecl.validate, bind_ok, require_ok, checkFile_ok, exists_const, ok_inj, decide_eq_true_eq] at h
  obtain ⟨h1, _, _, h2, properties, h3, rfl⟩ := h
  exact ⟨rfl, h1, rfl, h2, validateXmlProperties_known h3⟩

theorem InputDecl.validate_ok {lib : ConfigLib} {ps : GoMap ParserDecl} {p q : InputDecl} (h : p.validate lib ps = .ok q) :
    q.name = p.name ∧ p.name ≠ "" ∧ (∀ d, q = .csv d → (∀ c ∈ d.columns, Known ps c.parser) ∧ (d.columns.map ColumnDecl.name).Nodup) ∧
    ∀ d, q = .xml d → ∀ name parser xpath items properties, .mk name "primitive" parser xpath items properties ∈ xmlAll d.properties → Known ps parser := by
  cases p with
  | csv c =>
    simp only [InputDecl.validate, bind_ok, ok_inj] at h
    obtain ⟨d, hd, rfl⟩ := h
    obtain ⟨h1, h2, _, _, h3, h4⟩ := CsvDecl.validate_ok hd
    exact ⟨h1, h2, fun d h => (by cases h; exact ⟨h3, h4⟩), fun d h => (by cases h)⟩
  | xml c =>
    simp only [InputDecl.validate, bind_ok, ok_inj] at h
    obtain ⟨d, hd, rfl⟩ := h
    obtain ⟨h1, h2, _, _, h3⟩ := XmlDecl.validate_ok hd
    exact ⟨h1, h2, fun d h => (by cases h), fun d h => (by cases h; exact h3)⟩
  | json c =>
    simp only [InputDecl.validate, JsonDecl.validate, bind_ok, require_ok, checkFile_ok, exists_const, ok_inj, decide_eq_true_eq] at h
    obtain ⟨d, ⟨h1, _, rfl⟩, rfl⟩ := h
    exact ⟨rfl, h1, fun d h => (by cases h), fun d h => (by cases h)⟩

theorem validateList_sqlite {lib : ConfigLib} {message : String} : ∀ {seen : List String} {l l' : List SqlitePropertyDecl},
    validateList (SqlitePropertyDecl.validate lib) SqlitePropertyDecl.name message seen l = .ok l' →
    l'.map SqlitePropertyDecl.name = l.map SqlitePropertyDecl.name
  | _, [], _, h => by cases h; rfl
  | seen, x :: rest, _, h => by
    simp only [validateList, SqlitePropertyDecl.validate, bind_ok, require_ok, exists_const, ok_inj] at h
    obtain ⟨x', ⟨_, _, rfl⟩, _, r, hr, rfl⟩ := h
    simp [validateList_sqlite hr]

theorem IndexDecl.validate_ok {lib : ConfigLib} {is : GoMap InputDecl} {p q : IndexDecl} (h : p.validate lib is = .ok q) :
    q.name = p.name ∧ p.name ≠ "" ∧ (∀ input, inputOfIndex q = some input → Known is input) ∧
    ∀ input property, Searches p input property ↔ Searches q input property := by
  cases p with
  | map c =>
    simp only [IndexDecl.validate, MapDecl.validate, bind_ok, require_ok, exists_const, ok_inj, decide_eq_true_eq] at h
    obtain ⟨d, ⟨h1, h2, l, hl, rfl⟩, rfl⟩ := h
    rw [validateList_id hl]
    exact ⟨rfl, h1, fun i h => (by cases h; exact Option.isSome_iff_exists.1 h2), fun _ _ => .rfl⟩
  | wildcard c =>
    simp only [IndexDecl.validate, WildcardDecl.validate, bind_ok, require_ok, exists_const, ok_inj, decide_eq_true_eq] at h
    obtain ⟨d, ⟨h1, _, _, _, h2, l, hl, rfl⟩, rfl⟩ := h
    rw [validateList_id hl]
    exact ⟨rfl, h1, fun i h => (by cases h; exact Option.isSome_iff_exists.1 h2), fun _ _ => .rfl⟩
  | sqlite c =>
    simp only [IndexDecl.validate, SqliteDecl.validate, bind_ok, require_ok, exists_const, ok_inj, decide_eq_true_eq] at h
    obtain ⟨d, ⟨h1, _, h2, l, hl, rfl⟩, rfl⟩ := h
    refine ⟨rfl, h1, fun i h => (by cases h; exact Option.isSome_iff_exists.1 h2), fun input property => ?_⟩
    have key : ∀ l : List SqlitePropertyDecl, (∃ p ∈ l, p.name = property) ↔ property ∈ l.map SqlitePropertyDecl.name := by simp
    simp only [Searches, key, validateList_sqlite hl]
  | fts5 c =>
    simp only [IndexDecl.validate, Fts5Decl.validate, bind_ok, require_ok, exists_const, ok_inj, decide_eq_true_eq] at h
    obtain ⟨d, ⟨h1, _, h2, l, hl, rfl⟩, rfl⟩ := h
    exact ⟨rfl, h1, fun i h => (by cases h; exact Option.isSome_iff_exists.1 h2), fun _ _ => .rfl⟩
  | noop n =>
    simp only [IndexDecl.validate, bind_ok, require_ok, exists_const, ok_inj, decide_eq_true_eq] at h
    obtain ⟨h1, rfl⟩ := h
    exact ⟨rfl, h1, fun i h => (by cases h), fun _ _ => .rfl⟩

theorem searches_of_handles {i : IndexDecl} {input : InputDecl} {property : String} (h1 : i.handlesInput input = true) (h2 : i.handlesProperty property = true) :
    Searches i input.name property := by
  cases i <;> simp_all [IndexDecl.handlesInput, IndexDecl.handlesProperty, Searches]
  · obtain ⟨p, h, rfl⟩ := h2; exact ⟨p, h, rfl⟩

theorem checkIndex_ok {indexes : GoMap IndexDecl} {input : InputDecl} {index property : String} {u : Unit}
    (h : checkIndex indexes input index property = .ok u) : ∃ i, mapGet indexes index = some i ∧ Searches i input.name property := by
  unfold checkIndex at h
  cases hi : mapGet indexes index with
  | none => rw [hi] at h; cases h
  | some i =>
    rw [hi] at h
    simp only [bind_ok, require_ok, exists_const] at h
    exact ⟨i, rfl, searches_of_handles h.1 h.2⟩

theorem ParamConfig.validate_ok {indexes : GoMap IndexDecl} {ps : GoMap ParserDecl} {input : InputDecl} {p q : ParamConfig}
    (h : p.validate indexes ps input = .ok q) :
    (∃ parser, mapGet ps q.parser = some parser ∧ parser.primitive = true) ∧
    ∃ i, mapGet indexes q.index = some i ∧ Searches i input.name q.property := by
  simp only [ParamConfig.validate, bind_ok, require_ok, exists_const] at h
  obtain ⟨_, u, h1, h⟩ := h
  cases hp : mapGet ps (parserOrString p.parser) with
  | none => rw [hp] at h; cases h
  | some parser =>
    rw [hp] at h
    simp only [bind_ok, require_ok, exists_const, ok_inj] at h
    obtain ⟨h2, rfl⟩ := h
    exact ⟨⟨parser, hp, h2⟩, checkIndex_ok h1⟩

theorem validateLevel_ok {indexes : GoMap IndexDecl} {is : GoMap InputDecl} {inputName : String} {isArray : Bool} {sort sort' : List SortConfig}
    {matching matching' : List MatchConfig} (hr : ∀ k x, mapGet is k = some x → x.name = k)
    (h : validateLevel indexes is inputName isArray sort matching = .ok (sort', matching')) :
    Known is inputName ∧ (sort' = [] ∨ isArray = true) ∧ matching' ≠ [] ∧
    ∀ m ∈ matching', ∃ i, mapGet indexes m.childIndex = some i ∧ Searches i inputName m.childProperty := by
  simp only [validateLevel, bind_ok, require_ok, exists_const] at h
  obtain ⟨h0, h⟩ := h
  cases hi : mapGet is inputName with
  | none => rw [hi] at h; cases h
  | some input =>
    rw [hi] at h
    simp only [bind_ok, require_ok, exists_const, ok_inj, Prod.mk.injEq, Bool.not_eq_true', List.isEmpty_eq_false_iff] at h
    obtain ⟨sort1, h1, hm, matching1, h2, rfl, rfl⟩ := h
    refine ⟨⟨input, hi⟩, ?_, ?_, fun m hm => ?_⟩
    · simp only [Bool.or_eq_true, List.isEmpty_iff] at h0
      rcases h0 with h0 | h0
      · subst h0; cases h1; exact .inl rfl
      · exact .inr h0
    · rintro rfl
      cases matching with
      | nil => exact hm rfl
      | cons x rest =>
        simp only [validateList, bind_ok, ok_inj] at h2
        obtain ⟨_, _, _, _, _, _, h2⟩ := h2
        cases h2
    · obtain ⟨m', _, hm'⟩ := validateList_mem h2 hm
      simp only [MatchConfig.validate, bind_ok, ok_inj] at hm'
      obtain ⟨u, h3, rfl⟩ := hm'
      have := checkIndex_ok h3
      rwa [hr _ _ hi] at this

mutual
theorem Relationship.validate_ok {indexes : GoMap IndexDecl} {is : GoMap InputDecl} (hr : ∀ k x, mapGet is k = some x → x.name = k) :
    ∀ {p q : Relationship}, p.validate indexes is = .ok q → ∀ r ∈ relationshipWithNested q, Known is (inputOfRelationship r) ∧
    (sortOfRelationship r = [] ∨ isArrayRelationship r = true) ∧ matchesOfRelationship r ≠ [] ∧
    ∀ m ∈ matchesOfRelationship r, ∃ i, mapGet indexes m.childIndex = some i ∧ Searches i (inputOfRelationship r) m.childProperty
  | .mk inputName isArray limit sort matching relationships, q, h, r, hm => by
    simp only [Relationship.validate, bind_ok, ok_inj] at h
    obtain ⟨⟨sort', matching'⟩, h1, h⟩ := h
    obtain ⟨rs, h2, rfl⟩ := h
    simp only [relationshipWithNested, List.mem_cons] at hm
    rcases hm with rfl | hm
    · exact validateLevel_ok hr h1
    · exact validateRelationships_ok hr h2 r hm
theorem validateRelationships_ok {indexes : GoMap IndexDecl} {is : GoMap InputDecl} (hr : ∀ k x, mapGet is k = some x → x.name = k) :
    ∀ {l l' : List (String × Relationship)}, validateRelationships indexes is l = .ok l' → ∀ r ∈ relationshipsAll l', Known is (inputOfRelationship r) ∧
    (sortOfRelationship r = [] ∨ isArrayRelationship r = true) ∧ matchesOfRelationship r ≠ [] ∧
    ∀ m ∈ matchesOfRelationship r, ∃ i, mapGet indexes m.childIndex = some i ∧ Searches i (inputOfRelationship r) m.childProperty
  | [], _, h, r, hm => by
    simp only [validateRelationships, ok_inj] at h
    subst h
    simp [relationshipsAll] at hm
  | (name, p) :: rest, _, h, r, hm => by
    simp only [validateRelationships, bind_ok, ok_inj] at h
    obtain ⟨q, h1, rest', h2, rfl⟩ := h
    simp only [relationshipsAll, List.mem_append] at hm
    rcases hm with hm | hm
    · exact Relationship.validate_ok hr h1 r hm
    · exact validateRelationships_ok hr h2 r hm
end

/-- What validation gives for an output. -/
theorem OutputDecl.validate_ok {is : GoMap InputDecl} {indexes : GoMap IndexDecl} {ps : GoMap ParserDecl} (hr : ∀ k x, mapGet is k = some x → x.name = k)
    {p q : OutputDecl} (h : p.validate is indexes ps = .ok q) :
    q.name = p.name ∧ p.name ≠ "" ∧
    (∀ input, inputOfOutput q = some input → Known is input ∧ ∀ name param, (name, param) ∈ parametersOfOutput q →
      (∃ parser, mapGet ps param.parser = some parser ∧ parser.primitive = true) ∧
      ∃ i, mapGet indexes param.index = some i ∧ Searches i input param.property) ∧
    (∀ r ∈ relationshipsAll (relationshipsOfOutput q), Known is (inputOfRelationship r) ∧
      (sortOfRelationship r = [] ∨ isArrayRelationship r = true) ∧ matchesOfRelationship r ≠ [] ∧
      ∀ m ∈ matchesOfRelationship r, ∃ i, mapGet indexes m.childIndex = some i ∧ Searches i (inputOfRelationship r) m.childProperty) ∧
    (∀ name c, q = .array name c → ∃ limit : LimitConfig, limit.validate = some c.limit ∧ ∀ n ∈ c.parameters.map (·.1), n ≠ c.limit.parameter ∧ n ≠ c.offsetParameter) ∧
    (∀ name c, q = .object name c → c.parameters ≠ []) := by
  cases p with
  | graphql name =>
    simp only [OutputDecl.validate, bind_ok, require_ok, exists_const, ok_inj, decide_eq_true_eq] at h
    obtain ⟨h1, rfl⟩ := h
    exact ⟨rfl, h1, fun i h => (by cases h), fun r hm => (by simp [relationshipsOfOutput, relationshipsAll] at hm), fun _ _ h => (by cases h), fun _ _ h => (by cases h)⟩
  | array name c =>
    simp only [OutputDecl.validate, ArrayConfig.validate, bind_ok, require_ok, exists_const, ok_inj, decide_eq_true_eq] at h
    obtain ⟨d, ⟨h1, _, h'⟩, rfl⟩ := h
    replace h := h'; clear h'
    cases hi : mapGet is c.input with
    | none => rw [hi] at h; cases h
    | some input =>
      rw [hi] at h
      cases hl : c.limit.validate with
      | none => rw [hl] at h; cases h
      | some limit =>
        rw [hl] at h
        simp only [bind_ok, ok_inj] at h
        obtain ⟨params, h2, rs, h3, rfl⟩ := h
        refine ⟨rfl, h1, fun i h => ?_, validateRelationships_ok hr h3, fun _ _ h => ?_, fun _ _ h => (by cases h)⟩
        · cases h
          refine ⟨⟨input, hi⟩, fun n param hm => ?_⟩
          obtain ⟨param', _, h4⟩ := validateMap_mem h2 hm
          simp only [validateArrayParameter, bind_ok, require_ok, exists_const, ok_inj] at h4
          obtain ⟨p2, h4, _, _, rfl⟩ := h4
          have := ParamConfig.validate_ok h4
          rwa [hr _ _ hi] at this
        · cases h
          refine ⟨c.limit, hl, fun n hn => ?_⟩
          obtain ⟨⟨n, param⟩, hm, rfl⟩ := List.mem_map.1 hn
          obtain ⟨param', _, h4⟩ := validateMap_mem h2 hm
          simp only [validateArrayParameter, bind_ok, require_ok, exists_const, ok_inj, decide_eq_true_eq] at h4
          obtain ⟨p2, h4, h5, h6, rfl⟩ := h4
          exact ⟨h5, h6⟩
  | object name c =>
    simp only [OutputDecl.validate, ObjectConfig.validate, bind_ok, require_ok, exists_const, ok_inj, decide_eq_true_eq, Bool.not_eq_true', List.isEmpty_eq_false_iff] at h
    obtain ⟨d, ⟨h1, hne, _, h'⟩, rfl⟩ := h
    replace h := h'; clear h'
    cases hi : mapGet is c.input with
    | none => rw [hi] at h; cases h
    | some input =>
      rw [hi] at h
      simp only [bind_ok, ok_inj] at h
      obtain ⟨params, h2, rs, h3, rfl⟩ := h
      refine ⟨rfl, h1, fun i h => ?_, validateRelationships_ok hr h3, fun _ _ h => (by cases h), fun _ _ h => ?_⟩
      · cases h
        refine ⟨⟨input, hi⟩, fun n param hm => ?_⟩
        obtain ⟨param', _, h4⟩ := validateMap_mem h2 hm
        have := ParamConfig.validate_ok h4
        rwa [hr _ _ hi] at this
      · cases h
        rintro (h : params = [])
        have := validateMap_keys h2
        rw [h] at this
        simp at this
        exact hne this

theorem ServiceDecl.validate_ok {lib : ConfigLib} {os : GoMap OutputDecl} {p q : ServiceDecl} (h : p.validate lib os = .ok q) :
    q.name = p.name ∧ p.name ≠ "" ∧ q.errorsType = "application/json" ∧ (q.http.isSome ∨ q.https.isSome) ∧ q.routes = p.routes ∧ q.routes ≠ [] ∧
    (q.routes.map RouteDecl.path).Nodup ∧ ∀ r ∈ q.routes, r.path ≠ "" ∧ Known os r.output := by
  simp only [ServiceDecl.validate, bind_ok, require_ok, exists_const, ok_inj, decide_eq_true_eq] at h
  obtain ⟨h1, h2, https, h3, h4, routes, h5, h6, rfl⟩ := h
  have hid : ∀ {seen : List String} {l l' : List RouteDecl}, validateList (RouteDecl.validate os) RouteDecl.path "Duplicate path in array." seen l = .ok l' → l' = l := by
    intro seen l
    induction l generalizing seen with
    | nil => intro l' h; cases h; rfl
    | cons x rest ih =>
      intro l' h
      simp only [validateList, RouteDecl.validate, bind_ok, require_ok, exists_const, ok_inj] at h
      obtain ⟨x', ⟨_, _, _, rfl⟩, _, r, hr, rfl⟩ := h
      rw [ih hr]
  refine ⟨rfl, h1, ?_, ?_, hid h5, ?_, (validateList_names h5).1, fun r hr => ?_⟩
  · simp only [List.contains_eq_mem, List.mem_singleton, decide_eq_true_eq] at h6; exact h6
  · simp only [Option.isSome_map]
    simp only [Bool.or_eq_true] at h2
    rcases h2 with h2 | h2
    · right
      cases hh : p.https with
      | none => rw [hh] at h2; cases h2
      | some c =>
        rw [hh] at h3
        simp only [validateHttps, bind_ok, ok_inj] at h3
        obtain ⟨_, _, rfl⟩ := h3
        rfl
    · exact .inl h2
  · rw [hid h5]; simpa using h4
  · obtain ⟨r', _, h7⟩ := validateList_mem h5 hr
    simp only [RouteDecl.validate, bind_ok, require_ok, exists_const, ok_inj, decide_eq_true_eq] at h7
    obtain ⟨_, h8, h9, rfl⟩ := h7
    exact ⟨h8, Option.isSome_iff_exists.1 h9⟩

/-! ### Loaded configurations -/

/-- The maps of the configuration before validation. -/
theorem addDefaults_registered {p : ParsedConfig} {c : Config} (h : newConfig p = .ok c) :
    (((addDefaults c).parsers.map (·.1)).Nodup ∧ ∀ k x, (k, x) ∈ (addDefaults c).parsers → x.name = k) ∧
    (((addDefaults c).inputs.map (·.1)).Nodup ∧ ∀ k x, (k, x) ∈ (addDefaults c).inputs → x.name = k) ∧
    (((addDefaults c).indexes.map (·.1)).Nodup ∧ ∀ k x, (k, x) ∈ (addDefaults c).indexes → x.name = k) ∧
    (((addDefaults c).services.map (·.1)).Nodup ∧ ∀ k x, (k, x) ∈ (addDefaults c).services → x.name = k) ∧
    (((addDefaults c).outputs.map (·.1)).Nodup ∧ ∀ k x, (k, x) ∈ (addDefaults c).outputs → x.name = k) := by
  obtain ⟨h1, h2, h3, h4, h5⟩ := (newConfig_ok p).2.1 ⟨c, h⟩
  have hc := (newConfig_ok p).1 c h
  subst hc
  have base : ∀ {α : Type} (name : α → String) (l : List α), DifferentNames name l →
      ((l.map (fun x => (name x, x))).map (·.1)).Nodup ∧ ∀ k x, (k, x) ∈ l.map (fun x => (name x, x)) → name x = k := by
    intro α name l hl
    refine ⟨by simpa [Function.comp_def, DifferentNames] using hl, fun k x hm => ?_⟩
    obtain ⟨y, _, e⟩ := List.mem_map.1 hm
    cases e; rfl
  refine ⟨⟨foldDefaults_keys _ (base _ _ h1).1, fun k x hm => ?_⟩, base _ _ h2, ⟨addDefault_keys _ (base _ _ h3).1, fun k x hm => ?_⟩, base _ _ h4, base _ _ h5⟩
  · rcases foldDefaults_mem _ hm with hm | hm
    · exact (base _ _ h1).2 k x hm
    · exact hm.1.symm
  · rcases addDefault_mem hm with hm | ⟨rfl, rfl⟩
    · exact (base _ _ h3).2 k x hm
    · rfl

theorem validateMap_registered {α : Type} {name : α → String} {f : String → α → Res α} {m m' : GoMap α}
    (hm : (m.map (·.1)).Nodup ∧ ∀ k x, (k, x) ∈ m → name x = k) (h : validateMap f m = .ok m')
    (hf : ∀ k x y, f k x = .ok y → name y = name x ∧ name x ≠ "") : Registered name m' := by
  refine ⟨by rw [validateMap_keys h]; exact hm.1, fun k y hy => ?_⟩
  obtain ⟨x, h1, h2⟩ := validateMap_mem h hy
  have h3 := hm.2 k x h1
  obtain ⟨h4, h5⟩ := hf k x y h2
  exact ⟨h4.trans h3, h3 ▸ h5⟩

theorem known_validateMap {α : Type} {f : String → α → Res α} {m m' : GoMap α} (h : validateMap f m = .ok m') {n : String} (hk : Known m n) : Known m' n := by
  obtain ⟨x, hx⟩ := hk
  obtain ⟨y, hy, _⟩ := validateMap_get h hx
  exact ⟨y, hy⟩

theorem addDefault_known {α : Type} {name : α → String} (m : GoMap α) (d : α) : Known (addDefault name m d) (name d) := by
  unfold addDefault
  cases hm : mapGet m (name d) with
  | some y => exact ⟨y, hm⟩
  | none => exact ⟨d, by simp [mapGet_mapSet]⟩

theorem known_addDefault {α : Type} {name : α → String} {m : GoMap α} {n : String} (d : α) (h : Known m n) : Known (addDefault name m d) n := by
  unfold addDefault
  cases hm : mapGet m (name d) with
  | some y => exact h
  | none =>
    obtain ⟨x, hx⟩ := h
    by_cases e : name d = n
    · exact ⟨d, by simp [mapGet_mapSet, e]⟩
    · exact ⟨x, by simp [mapGet_mapSet, e, hx]⟩

theorem foldDefaults_known {α : Type} {name : α → String} : ∀ (defaults : List α) (m : GoMap α), ∀ d ∈ defaults, Known (defaults.foldl (addDefault name) m) (name d)
  | x :: rest, m, d, hd => by
    have keep : ∀ (l : List α) (m : GoMap α) n, Known m n → Known (l.foldl (addDefault name) m) n := by
      intro l
      induction l with
      | nil => exact fun _ _ h => h
      | cons y l ih => exact fun m n h => ih _ _ (known_addDefault y h)
    rcases List.mem_cons.1 hd with rfl | hd
    · exact keep rest _ _ (addDefault_known m _)
    · exact foldDefaults_known rest _ d hd

/-- A loaded configuration: its components are registered, have been validated, and refer to existing ones. -/
theorem loadConfig_ok {lib : ConfigLib} {p : ParsedConfig} {c : Config} (h : loadConfig lib p = .ok c) :
    References c ∧ Registered ParserDecl.name c.parsers ∧ Registered InputDecl.name c.inputs ∧ Registered IndexDecl.name c.indexes ∧
    Registered ServiceDecl.name c.services ∧ Registered OutputDecl.name c.outputs ∧
    (∀ d ∈ builtinParsers, Known c.parsers d.name) ∧
    (∀ n p, (n, p) ∈ c.parsers → (∀ t f, p.kind = .boolean t f → t ≠ [] ∧ f ≠ []) ∧ (∀ s i, p.kind = .float s i → s ≠ "") ∧
      ∀ d r parser, p.kind = .split d r parser → d ≠ none) := by
  simp only [loadConfig, bind_ok] at h
  obtain ⟨c0, h0, h⟩ := h
  obtain ⟨r1, r2, r3, r4, r5⟩ := addDefaults_registered h0
  have hdef : Known (addDefaults c0).indexes "default" := addDefault_known (name := IndexDecl.name) c0.indexes (.noop "default")
  have hpar : ∀ d ∈ builtinParsers, Known (addDefaults c0).parsers d.name := fun d hd => foldDefaults_known defaultParsers c0.parsers d hd
  generalize addDefaults c0 = c1 at h r1 r2 r3 r4 r5 hdef hpar
  simp only [Config.validate, bind_ok, ok_inj] at h
  obtain ⟨parsers, h1, inputs, h2, indexes, h3, services, h4, outputs, h5, rfl⟩ := h
  have hr : ∀ k x, mapGet c1.inputs k = some x → x.name = k := fun k x hx => r2.2 k x (mapGet_mem hx)
  have searching : ∀ n input property, (∃ i, mapGet c1.indexes n = some i ∧ Searches i input property) →
      ∃ i, mapGet indexes n = some i ∧ Searches i input property := by
    rintro n input property ⟨i, hi, hs⟩
    obtain ⟨j, hj, hv⟩ := validateMap_get h3 hi
    exact ⟨j, hj, ((IndexDecl.validate_ok hv).2.2.2 input property).1 hs⟩
  refine ⟨?_, validateMap_registered r1 h1 (fun _ _ _ h => ⟨(ParserDecl.validate_ok h).1, (ParserDecl.validate_ok h).2.1⟩),
    validateMap_registered r2 h2 (fun _ _ _ h => ⟨(InputDecl.validate_ok h).1, (InputDecl.validate_ok h).2.1⟩),
    validateMap_registered r3 h3 (fun _ _ _ h => ⟨(IndexDecl.validate_ok h).1, (IndexDecl.validate_ok h).2.1⟩),
    validateMap_registered r4 h4 (fun _ _ _ h => ⟨(ServiceDecl.validate_ok h).1, (ServiceDecl.validate_ok h).2.1⟩),
    validateMap_registered r5 h5 (fun _ _ _ h => ⟨(OutputDecl.validate_ok hr h).1, (OutputDecl.validate_ok hr h).2.1⟩),
    fun d hd => known_validateMap h1 (hpar d hd), fun n p hp => ?_⟩
  · constructor
    · exact known_validateMap h3 hdef
    · intro n p hp d r parser hk
      obtain ⟨x, _, hx⟩ := validateMap_mem h1 hp
      exact known_validateMap h1 ((ParserDecl.validate_ok hx).2.2.2.2.2 d r parser hk).2
    · intro n d hd column hc
      obtain ⟨x, _, hx⟩ := validateMap_mem h2 hd
      exact known_validateMap h1 (((InputDecl.validate_ok hx).2.2.1 d rfl).1 column hc)
    · intro n d hd name parser xpath items properties hm
      obtain ⟨x, _, hx⟩ := validateMap_mem h2 hd
      exact known_validateMap h1 ((InputDecl.validate_ok hx).2.2.2 d rfl _ _ _ _ _ hm)
    · intro n i hi input hin
      obtain ⟨x, _, hx⟩ := validateMap_mem h3 hi
      exact known_validateMap h2 ((IndexDecl.validate_ok hx).2.2.1 input hin)
    · intro n o ho input hin
      obtain ⟨x, _, hx⟩ := validateMap_mem h5 ho
      obtain ⟨_, _, h6, _⟩ := OutputDecl.validate_ok hr hx
      obtain ⟨h7, h8⟩ := h6 input hin
      refine ⟨known_validateMap h2 h7, fun name param hm => ?_⟩
      obtain ⟨⟨parser, h9, h10⟩, h11⟩ := h8 name param hm
      obtain ⟨parser', h12, h13⟩ := validateMap_get h1 h9
      exact ⟨⟨parser', h12, by rw [(ParserDecl.validate_ok h13).2.2.1]; exact h10⟩, searching _ _ _ h11⟩
    · intro n o ho r hm
      obtain ⟨x, _, hx⟩ := validateMap_mem h5 ho
      obtain ⟨h7, _, _, h8⟩ := (OutputDecl.validate_ok hr hx).2.2.2.1 r hm
      exact ⟨known_validateMap h2 h7, fun m hm => searching _ _ _ (h8 m hm)⟩
    · intro n s hs route hm
      obtain ⟨x, _, hx⟩ := validateMap_mem h4 hs
      exact known_validateMap h5 ((ServiceDecl.validate_ok hx).2.2.2.2.2.2.2 route hm).2
  · obtain ⟨x, _, hx⟩ := validateMap_mem h1 hp
    obtain ⟨_, _, _, ha, hb, hc⟩ := ParserDecl.validate_ok hx
    exact ⟨ha, hb, fun d r parser hk => (hc d r parser hk).1⟩

end Rodb
