import Verif.Proofs.Path
import Verif.Proofs.Conj
namespace Rodb
open Spec

theorem mapGet_mapValues {α β : Type} (g : α → β) (m : GoMap α) (n : String) : mapGet (m.map (fun e => (e.1, g e.2))) n = (mapGet m n).map g := by
  induction m with
  | nil => rfl
  | cons e m ih =>
    obtain ⟨k, x⟩ := e
    simp only [List.map_cons, mapGet]
    split
    · rfl
    · exact ih

/-! ### Dotted paths -/

theorem splitDots_ne_nil : ∀ l, splitDots l ≠ [] := by
  intro l
  cases l with
  | nil => simp [splitDots]
  | cons c l =>
    simp only [splitDots]
    split
    · simp
    · split <;> simp

theorem splitDots_spec : ∀ l, ['.'].intercalate (splitDots l) = l ∧ ∀ p ∈ splitDots l, '.' ∉ p := by
  intro l
  induction l with
  | nil => simp [splitDots, List.intercalate]
  | cons c l ih =>
    simp only [splitDots]
    cases h : splitDots l with
    | nil => exact absurd h (splitDots_ne_nil l)
    | cons q qs =>
      rw [h] at ih
      simp only
      split
      · rename_i hc
        refine ⟨?_, ?_⟩
        · rw [intercalate_cons _ _ (by simp), ih.1, hc]; rfl
        · intro p hp
          rcases List.mem_cons.mp hp with rfl | hp
          · simp
          · exact ih.2 p hp
      · rename_i hc
        refine ⟨?_, ?_⟩
        · cases qs with
          | nil =>
            have := ih.1
            simp only [List.intercalate, List.intersperse, List.flatten_cons, List.flatten_nil, List.append_nil] at this ⊢
            rw [this]
          | cons q' qs =>
            have := ih.1
            rw [intercalate_cons _ _ (by simp)] at this ⊢
            rw [← this]; rfl
        · intro p hp
          rcases List.mem_cons.mp hp with rfl | hp
          · intro hm
            rcases List.mem_cons.mp hm with h1 | h1
            · exact hc h1.symm
            · exact ih.2 q List.mem_cons_self h1
          · exact ih.2 p (List.mem_cons_of_mem _ hp)

theorem splitPath_toList (path : String) : (splitPath path).map String.toList = splitDots path.toList := by
  simp [splitPath, List.map_map, Function.comp_def]

theorem splitPath_ne_nil (path : String) : splitPath path ≠ [] := by
  simp [splitPath, splitDots_ne_nil]

theorem splitPath_empty : splitPath "" = [""] := by rfl

/-! ### XML -/

/-- What the outcomes of looking up a path mean, for a record whose value is `v` : as in `LookupSpec`, but the
path may go on below a null. -/
structure XmlSpec (v : Value) (path : List String) (r : Res Value) : Prop where
  at_ : ∀ w, AtPath v path w → r = .ok w
  ok : ∀ w, r = .ok w → AtPath v path w ∨ (w = .null ∧ (Missing v path ∨ ∃ k, Stops v path .null k))
  err : ∀ msg, r = .error (.err msg) → Blocked v path
  panic : ∀ msg, r = .error (.panic msg) → NegativeIndex v path
  diverge : r ≠ .error .diverge

theorem LookupSpec.xml {v : Value} {path : List String} {r : Res Value} (h : LookupSpec v path r) : XmlSpec v path r :=
  { at_ := fun w hw => (h.ok w).mpr (.inl hw)
    ok := fun w hw => by
      rcases (h.ok w).mp hw with h1 | ⟨h1, h2⟩
      · exact .inl h1
      · exact .inr ⟨h1, .inl h2⟩
    err := fun msg hm => h.err.mp ⟨msg, hm⟩
    panic := fun msg hm => h.panic.mp ⟨msg, hm⟩
    diverge := h.diverge }

theorem XmlSpec.step {v : Value} {k : String} {path : List String} {x : Value} {r : Res Value} (hr : XmlSpec x path r)
    (hv : (∃ m, v = .obj m ∧ m.lookup k = some x) ∨ (∃ l, ∃ i : Nat, v = .arr l ∧ IndexText k i ∧ l[i]? = some x)) :
    XmlSpec v (k :: path) r := by
  have hst : ∀ {u k'}, Stops x path u k' → Stops v (k :: path) u k' := by
    intro u k' h
    rw [stops_cons_iff]
    rcases hv with ⟨m, rfl, hm⟩ | ⟨l, i, rfl, hk, hl⟩
    · exact .inr (.inl ⟨m, x, rfl, hm, h⟩)
    · exact .inr (.inr ⟨l, i, x, rfl, hk, hl, h⟩)
  have hat : ∀ w, AtPath v (k :: path) w ↔ AtPath x path w := by
    intro w
    rw [atPath_cons_iff]
    rcases hv with ⟨m, rfl, hm⟩ | ⟨l, i, rfl, hk, hl⟩
    · constructor
      · rintro (⟨m', u, he, h1, h2⟩ | ⟨l, i, u, he, _⟩)
        · cases he
          rw [hm] at h1; cases h1; exact h2
        · cases he
      · intro h; exact .inl ⟨m, x, rfl, hm, h⟩
    · constructor
      · rintro (⟨m', u, he, h1, h2⟩ | ⟨l', j, u, he, h1, h2, h3⟩)
        · cases he
        · cases he
          have : (i : Int) = j := IntegerText.unique hk h1
          have : i = j := by omega
          subst this
          rw [hl] at h2; cases h2; exact h3
      · intro h; exact .inr ⟨l, i, x, rfl, hk, hl, h⟩
  refine ⟨?_, ?_, ?_, ?_, hr.diverge⟩
  · intro w h; exact hr.at_ w ((hat w).mp h)
  · intro w h
    rcases hr.ok w h with h1 | ⟨h1, ⟨u, k', h2, h3⟩ | ⟨k', h2⟩⟩
    · exact .inl ((hat w).mpr h1)
    · exact .inr ⟨h1, .inl ⟨u, k', hst h2, h3⟩⟩
    · exact .inr ⟨h1, .inr ⟨k', hst h2⟩⟩
  · intro msg h
    obtain ⟨u, k', h2, h3⟩ := hr.err msg h
    exact ⟨u, k', hst h2, h3⟩
  · intro msg h
    obtain ⟨u, k', h2, h3⟩ := hr.panic msg h
    exact ⟨u, k', hst h2, h3⟩

theorem xmlSpec_null (k : String) (path : List String) : XmlSpec .null (k :: path) (.ok .null) := by
  refine ⟨?_, ?_, ?_, ?_, by simp⟩
  · intro w h; cases h
  · intro w h; cases h; exact .inr ⟨rfl, .inr ⟨k, [], path, rfl, .here _⟩⟩
  · intro msg h; cases h
  · intro msg h; cases h

theorem xmlArray_spec {N : Type} {f : N → Res Value} : ∀ {nodes : List N} {vs : List Value}, xmlArray f nodes = .ok vs →
    vs.length = nodes.length ∧ ∀ (i : Nat) (n : N), nodes[i]? = some n → ∃ v, vs[i]? = some v ∧ f n = .ok v := by
  intro nodes
  induction nodes with
  | nil => intro vs h; cases h; simp
  | cons n nodes ih =>
    intro vs h
    simp only [xmlArray] at h
    cases hf : f n with
    | error e => rw [hf] at h; cases h
    | ok v =>
      rw [hf] at h
      simp only at h
      cases hr : xmlArray f nodes with
      | error e => rw [hr] at h; cases h
      | ok ws =>
        rw [hr] at h
        cases h
        obtain ⟨h1, h2⟩ := ih hr
        refine ⟨by simp [h1], ?_⟩
        intro i m hm
        cases i with
        | zero => simp only [List.getElem?_cons_zero, Option.some.injEq] at hm; subst hm; exact ⟨v, by simp, hf⟩
        | succ i => simp only [List.getElem?_cons_succ] at hm ⊢; exact h2 i m hm

theorem xmlSubProperty_absent {N : Type} (env : XmlEnv) {k : String} {sub : List String} {absent : Res Value} {node : N} :
    ∀ {ps : List (XmlProp N)}, k ∉ ps.map XmlProp.name → xmlSubProperty env ps node k sub absent = absent := by
  intro ps
  induction ps with
  | nil => intro _; rfl
  | cons p ps ih =>
    intro h
    simp only [List.map_cons, List.mem_cons, not_or] at h
    simp only [xmlSubProperty]
    rw [if_neg (fun he => h.1 he.symm)]
    exact ih h.2

mutual
theorem xmlSubValue_spec {N : Type} (env : XmlEnv) : ∀ (p : XmlProp N), p.valid = true → ∀ (node : N) (v : Value),
    xmlAllValues env p node = .ok v → ∀ path, XmlSpec v path (xmlSubValue env p node path)
  | .array name select items, hvalid, node, v, hall, path => by
    simp only [XmlProp.valid] at hvalid
    simp only [xmlAllValues] at hall
    cases harr : xmlArray (xmlAllValues env items) (select node) with
    | error e => rw [harr] at hall; cases hall
    | ok vs =>
      rw [harr] at hall
      cases hall
      obtain ⟨hlen, hget⟩ := xmlArray_spec harr
      cases path with
      | nil => simp only [xmlSubValue, harr]; exact (LookupSpec.nil _).xml
      | cons k path =>
        simp only [xmlSubValue]
        cases h : atoi (utf8 k.toList) with
        | none => exact (LookupSpec.notIndex (fun i hi => by rw [(atoi_iff _ _).mpr hi] at h; cases h)).xml
        | some i =>
          have hk : IndexText k i := (atoi_iff _ _).mp h
          simp only
          split
          · rename_i hge; exact (LookupSpec.pastEnd hk (by omega)).xml
          · rename_i hlt
            by_cases hneg : i < 0
            · have : goIndex (select node) i = .error (.panic "index out of range") := by simp [goIndex, hneg]
              rw [this]
              exact (LookupSpec.negative hk hneg).xml
            · obtain ⟨n, hn, hg⟩ := goIndex_ok (l := select node) (i := i) (by omega) (by omega)
              rw [hg]
              obtain ⟨w, hw, hf⟩ := hget _ _ hn
              refine (xmlSubValue_spec env items hvalid n w hf path).step (.inr ⟨vs, i.toNat, rfl, ?_, hw⟩)
              have : (i.toNat : Int) = i := by omega
              rw [this]; exact hk
  | .object name select properties, hvalid, node, v, hall, path => by
    simp only [XmlProp.valid, Bool.and_eq_true, decide_eq_true_eq] at hvalid
    simp only [xmlAllValues] at hall
    cases path with
    | nil =>
      have : xmlSubValue env (.object name select properties) node [] = .ok v := by
        simp only [xmlSubValue]; exact hall
      rw [this]
      exact (LookupSpec.nil _).xml
    | cons k path =>
      simp only [xmlSubValue]
      cases hs : select node with
      | nil =>
        rw [hs] at hall
        cases hall
        exact xmlSpec_null k path
      | cons n ns =>
        cases ns with
        | cons n' ns => rw [hs] at hall; cases hall
        | nil =>
          rw [hs] at hall
          simp only at hall ⊢
          cases ho : xmlObject env properties n [] with
          | error e => rw [ho] at hall; cases hall
          | ok m =>
            rw [ho] at hall
            cases hall
            obtain ⟨h1, h2⟩ := xmlSubProps_spec env properties hvalid.1 hvalid.2 n [] m ho
            by_cases hk : k ∈ properties.map XmlProp.name
            · obtain ⟨w, hw, hsp⟩ := h2 k hk path (.ok .null)
              rw [mapGet_eq_lookup] at hw
              exact hsp.step (.inl ⟨m, rfl, hw⟩)
            · rw [xmlSubProperty_absent env hk]
              have := h1 k hk
              rw [mapGet_eq_lookup] at this
              exact (LookupSpec.missingKey this).xml
  | .primitive name eval parser, hvalid, node, v, hall, path => by
    simp only [xmlAllValues] at hall
    simp only [xmlSubValue]
    cases he : eval node with
    | str s =>
      rw [he] at hall
      simp only [XmlEnv.primitiveValue] at hall
      simp only [hall]
      exact (getSubValue_spec path v).xml
    | num f =>
      rw [he] at hall
      cases path with
      | nil => simp only [List.length_nil, Nat.lt_irrefl, gt_iff_lt, if_false, hall]; exact (LookupSpec.nil _).xml
      | cons k path =>
        simp only [List.length_cons, gt_iff_lt, Nat.zero_lt_succ, if_true]
        have hv : (∀ m, v ≠ .obj m) ∧ (∀ l, v ≠ .arr l) := by
          simp only [XmlEnv.primitiveValue, XmlEnv.numericValue] at hall
          split at hall <;> cases hall <;> simp
        exact (LookupSpec.primitive hv.1 hv.2).xml
    | bool b =>
      rw [he] at hall
      cases path with
      | nil => simp only [List.length_nil, Nat.lt_irrefl, gt_iff_lt, if_false, hall]; exact (LookupSpec.nil _).xml
      | cons k path =>
        simp only [List.length_cons, gt_iff_lt, Nat.zero_lt_succ, if_true]
        have hv : (∀ m, v ≠ .obj m) ∧ (∀ l, v ≠ .arr l) := by
          simp only [XmlEnv.primitiveValue, XmlEnv.boolValue] at hall
          split at hall <;> cases hall <;> simp
        exact (LookupSpec.primitive hv.1 hv.2).xml
    | nodes x =>
      rw [he] at hall
      cases path with
      | nil => simp only [List.length_nil, Nat.lt_irrefl, gt_iff_lt, if_false, hall]; exact (LookupSpec.nil _).xml
      | cons k path =>
        simp only [List.length_cons, gt_iff_lt, Nat.zero_lt_succ, if_true]
        have hv : (∀ m, v ≠ .obj m) ∧ (∀ l, v ≠ .arr l) := by
          simp only [XmlEnv.primitiveValue, XmlEnv.nodesValue] at hall
          split at hall <;> cases hall <;> simp
        exact (LookupSpec.primitive hv.1 hv.2).xml
    | other => rw [he] at hall; cases hall
theorem xmlSubProps_spec {N : Type} (env : XmlEnv) : ∀ (ps : List (XmlProp N)), validXmlProps ps = true → (ps.map XmlProp.name).Nodup →
    ∀ (node : N) (vals m : GoMap Value), xmlObject env ps node vals = .ok m →
    (∀ k, k ∉ ps.map XmlProp.name → mapGet m k = mapGet vals k) ∧
    ∀ k, k ∈ ps.map XmlProp.name → ∀ sub absent, ∃ v, mapGet m k = some v ∧ XmlSpec v sub (xmlSubProperty env ps node k sub absent)
  | [], _, _, node, vals, m, ho => by
    cases ho
    exact ⟨fun _ _ => rfl, by simp⟩
  | p :: ps, hvalid, hnd, node, vals, m, ho => by
    simp only [validXmlProps, Bool.and_eq_true, decide_eq_true_eq] at hvalid
    simp only [List.map_cons, List.nodup_cons] at hnd
    simp only [xmlObject] at ho
    cases hv : xmlAllValues env p node with
    | error e => rw [hv] at ho; cases ho
    | ok v =>
      rw [hv] at ho
      simp only at ho
      obtain ⟨h1, h2⟩ := xmlSubProps_spec env ps hvalid.2 hnd.2 node _ m ho
      constructor
      · intro k hk
        simp only [List.map_cons, List.mem_cons, not_or] at hk
        rw [h1 k hk.2, mapGet_mapSet, if_neg (fun he => hk.1 he.symm)]
      · intro k hk sub absent
        simp only [xmlSubProperty]
        by_cases he : p.name = k
        · rw [if_pos he]
          refine ⟨v, ?_, xmlSubValue_spec env p hvalid.1.2 node v hv sub⟩
          rw [h1 k (by rw [← he]; exact hnd.1), mapGet_mapSet, if_pos he]
        · rw [if_neg he]
          simp only [List.map_cons, List.mem_cons] at hk
          rcases hk with hk | hk
          · exact absurd hk.symm he
          · exact h2 k hk sub absent
end

/-! ### CSV -/

theorem columnIndexes_get {name : String} : ∀ (columns : List CsvColumn) (i : Nat) (m : GoMap Nat), (columns.map (·.name)).Nodup →
    (name ∉ columns.map (·.name) → mapGet (columnIndexes columns i m) name = mapGet m name) ∧
    (∀ (j : Nat) (c : CsvColumn), columns[j]? = some c → c.name = name → mapGet (columnIndexes columns i m) name = some (i + j)) := by
  intro columns
  induction columns with
  | nil => intro i m _; simp [columnIndexes]
  | cons c rest ih =>
    intro i m hnd
    simp only [List.map_cons, List.nodup_cons] at hnd
    obtain ⟨h1, h2⟩ := ih (i + 1) (mapSet m c.name i) hnd.2
    simp only [columnIndexes]
    constructor
    · intro hn
      simp only [List.map_cons, List.mem_cons, not_or] at hn
      rw [h1 hn.2, mapGet_mapSet, if_neg (fun he => hn.1 he.symm)]
    · intro j d hj hd
      cases j with
      | zero =>
        simp only [List.getElem?_cons_zero, Option.some.injEq] at hj
        subst hj
        rw [h1 (by rw [← hd]; exact hnd.1), mapGet_mapSet, if_pos hd]
        rfl
      | succ j =>
        simp only [List.getElem?_cons_succ] at hj
        rw [h2 j d hj hd]
        congr 1; omega

theorem csvGetColumn_spec {columns : List CsvColumn} (hnd : (columns.map (·.name)).Nodup) (data : List Bytes) :
    (∀ (j : Nat) (c : CsvColumn), columns[j]? = some c → csvGetColumn columns data c.name =
      match data[j]? with
      | none => .ok .null
      | some cell => c.parse cell) ∧
    (∀ name, name ∉ columns.map (·.name) → ∃ msg, csvGetColumn columns data name = .error (.err msg)) := by
  constructor
  · intro j c hj
    unfold csvGetColumn
    rw [(columnIndexes_get columns 0 [] hnd).2 j c hj rfl]
    simp only [Nat.zero_add]
    cases hd : data[j]? with
    | none => rfl
    | some cell => simp only [hj]
  · intro name hn
    unfold csvGetColumn
    rw [(columnIndexes_get columns 0 [] hnd).1 hn]
    exact ⟨_, rfl⟩

theorem csvAll_spec {columns : List CsvColumn} {data : List Bytes} : ∀ {todo : List CsvColumn} {result m : GoMap Value},
    (todo.map (·.name)).Nodup → csvAll columns data todo result = .ok m →
    (∀ k, k ∉ todo.map (·.name) → mapGet m k = mapGet result k) ∧
    (∀ c ∈ todo, ∃ v, csvGetColumn columns data c.name = .ok v ∧ mapGet m c.name = some v) := by
  intro todo
  induction todo with
  | nil => intro result m _ h; cases h; simp
  | cons c todo ih =>
    intro result m hnd h
    simp only [List.map_cons, List.nodup_cons] at hnd
    simp only [csvAll] at h
    cases hv : csvGetColumn columns data c.name with
    | error e => rw [hv] at h; cases h
    | ok v =>
      rw [hv] at h
      obtain ⟨h1, h2⟩ := ih hnd.2 h
      constructor
      · intro k hk
        simp only [List.map_cons, List.mem_cons, not_or] at hk
        rw [h1 k hk.2, mapGet_mapSet, if_neg (fun he => hk.1 he.symm)]
      · intro d hd
        rcases List.mem_cons.mp hd with rfl | hd
        · refine ⟨v, hv, ?_⟩
          rw [h1 _ hnd.1, mapGet_mapSet, if_pos rfl]
        · exact h2 d hd

end Rodb
