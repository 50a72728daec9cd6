import Verif.Model.Path
import Verif.Spec.Path
import Verif.Proofs.Text
namespace Rodb
open Spec

theorem mapGet_eq_lookup {α : Type} (k : String) : ∀ m : GoMap α, mapGet m k = m.lookup k := by
  intro m
  induction m with
  | nil => rfl
  | cons p m ih =>
    obtain ⟨k', v⟩ := p
    simp only [mapGet, List.lookup_cons, ih]
    by_cases h : k' = k
    · subst h; simp
    · rw [if_neg h]
      have : (k == k') = false := by simp; exact fun h' => h h'.symm
      simp [this]

theorem IntegerText.unique {s : Bytes} {i j : Int} (hi : IntegerText s i) (hj : IntegerText s j) : i = j := by
  rw [← atoi_iff] at hi hj
  rw [hi] at hj
  exact Option.some.inj hj

theorem atPath_cons_iff {v : Value} {k : String} {path : List String} {w : Value} :
    AtPath v (k :: path) w ↔
      (∃ m u, v = .obj m ∧ m.lookup k = some u ∧ AtPath u path w) ∨
      (∃ l, ∃ i : Nat, ∃ u, v = .arr l ∧ IndexText k i ∧ l[i]? = some u ∧ AtPath u path w) := by
  constructor
  · intro h
    cases h with
    | key h1 h2 => exact .inl ⟨_, _, rfl, h1, h2⟩
    | index h1 h2 h3 => exact .inr ⟨_, _, _, rfl, h1, h2, h3⟩
  · rintro (⟨m, u, rfl, h1, h2⟩ | ⟨l, i, u, rfl, h1, h2, h3⟩)
    · exact .key h1 h2
    · exact .index h1 h2 h3

theorem stops_cons_iff {v : Value} {k0 k : String} {path : List String} {u : Value} :
    Stops v (k0 :: path) u k ↔ (u = v ∧ k = k0) ∨
      (∃ m x, v = .obj m ∧ m.lookup k0 = some x ∧ Stops x path u k) ∨
      (∃ l, ∃ i : Nat, ∃ x, v = .arr l ∧ IndexText k0 i ∧ l[i]? = some x ∧ Stops x path u k) := by
  constructor
  · rintro ⟨f, rest, he, ha⟩
    cases f with
    | nil =>
      cases ha
      simp only [List.nil_append, List.cons.injEq] at he
      exact .inl ⟨rfl, he.1.symm⟩
    | cons x f =>
      simp only [List.cons_append, List.cons.injEq] at he
      obtain ⟨rfl, rfl⟩ := he
      rcases atPath_cons_iff.mp ha with ⟨m, y, rfl, h1, h2⟩ | ⟨l, i, y, rfl, h1, h2, h3⟩
      · exact .inr (.inl ⟨m, y, rfl, h1, f, rest, rfl, h2⟩)
      · exact .inr (.inr ⟨l, i, y, rfl, h1, h2, f, rest, rfl, h3⟩)
  · rintro (⟨rfl, rfl⟩ | ⟨m, x, rfl, h1, f, rest, rfl, h2⟩ | ⟨l, i, x, rfl, h1, h2, f, rest, rfl, h3⟩)
    · exact ⟨[], path, rfl, .here _⟩
    · exact ⟨k0 :: f, rest, rfl, .key h1 h2⟩
    · exact ⟨k0 :: f, rest, rfl, .index h1 h2 h3⟩

theorem stops_nil {v u : Value} {k : String} : ¬ Stops v [] u k := by
  rintro ⟨f, rest, he, _⟩
  simp at he

/-- What the four outcomes of a lookup mean. -/
structure LookupSpec (v : Value) (path : List String) (r : Res Value) : Prop where
  ok : ∀ w, r = .ok w ↔ AtPath v path w ∨ (w = .null ∧ Missing v path)
  err : (∃ msg, r = .error (.err msg)) ↔ Blocked v path
  panic : (∃ msg, r = .error (.panic msg)) ↔ NegativeIndex v path
  diverge : r ≠ .error .diverge

theorem LookupSpec.nil (v : Value) : LookupSpec v [] (.ok v) := by
  refine ⟨?_, ?_, ?_, by simp⟩
  · intro w
    simp only [Except.ok.injEq]
    constructor
    · rintro rfl; exact .inl (.here _)
    · rintro (h | ⟨_, u, k, h, _⟩)
      · cases h; rfl
      · exact absurd h stops_nil
  · constructor
    · rintro ⟨_, h⟩; cases h
    · rintro ⟨u, k, h, _⟩; exact absurd h stops_nil
  · constructor
    · rintro ⟨_, h⟩; cases h
    · rintro ⟨u, k, h, _⟩; exact absurd h stops_nil

theorem LookupSpec.step {v : Value} {k : String} {path : List String} {x : Value} {r : Res Value} (hr : LookupSpec x path r)
    (hv : (∃ m, v = .obj m ∧ m.lookup k = some x) ∨ (∃ l, ∃ i : Nat, v = .arr l ∧ IndexText k i ∧ l[i]? = some x)) :
    LookupSpec v (k :: path) r := by
  have hat : ∀ w, AtPath v (k :: path) w ↔ AtPath x path w := by
    intro w
    rw [atPath_cons_iff]
    rcases hv with ⟨m, rfl, hm⟩ | ⟨l, i, rfl, hk, hl⟩
    · constructor
      · rintro (⟨m', u, he, h1, h2⟩ | ⟨l, i, u, he, _⟩)
        · cases he
          rw [hm] at h1; cases h1; exact h2
        · cases he
      · intro h; exact .inl ⟨m, x, rfl, hm, h⟩
    · constructor
      · rintro (⟨m', u, he, h1, h2⟩ | ⟨l', j, u, he, h1, h2, h3⟩)
        · cases he
        · cases he
          have : (i : Int) = j := IntegerText.unique hk h1
          have : i = j := by omega
          subst this
          rw [hl] at h2; cases h2; exact h3
      · intro h; exact .inr ⟨l, i, x, rfl, hk, hl, h⟩
  have hst : ∀ u k', Stops v (k :: path) u k' ↔ (u = v ∧ k' = k) ∨ Stops x path u k' := by
    intro u k'
    rw [stops_cons_iff]
    rcases hv with ⟨m, rfl, hm⟩ | ⟨l, i, rfl, hk, hl⟩
    · constructor
      · rintro (h | ⟨m', u, he, h1, h2⟩ | ⟨l, i, u, he, _⟩)
        · exact .inl h
        · cases he
          rw [hm] at h1; cases h1; exact .inr h2
        · cases he
      · rintro (h | h)
        · exact .inl h
        · exact .inr (.inl ⟨m, x, rfl, hm, h⟩)
    · constructor
      · rintro (h | ⟨m', u, he, h1, h2⟩ | ⟨l', j, u, he, h1, h2, h3⟩)
        · exact .inl h
        · cases he
        · cases he
          have : (i : Int) = j := IntegerText.unique hk h1
          have : i = j := by omega
          subst this
          rw [hl] at h2; cases h2; exact .inr h3
      · rintro (h | h)
        · exact .inl h
        · exact .inr (.inr ⟨l, i, x, rfl, hk, hl, h⟩)
  have hn1 : ¬ ((∃ m, v = .obj m ∧ m.lookup k = none) ∨ (∃ l, ∃ i : Nat, v = .arr l ∧ IndexText k i ∧ l.length ≤ i)) := by
    rcases hv with ⟨m, rfl, hm⟩ | ⟨l, i, rfl, hk, hl⟩
    · rintro (⟨m', he, h⟩ | ⟨l, i, he, _⟩)
      · cases he; rw [hm] at h; cases h
      · cases he
    · rintro (⟨m', he, h⟩ | ⟨l', j, he, h1, h2⟩)
      · cases he
      · cases he
        have : (i : Int) = j := IntegerText.unique hk h1
        obtain ⟨hlt, _⟩ := List.getElem?_eq_some_iff.mp hl
        omega
  have hn2 : ¬ (((∀ m, v ≠ .obj m) ∧ (∀ l, v ≠ .arr l)) ∨ (∃ l, v = .arr l ∧ ∀ i, ¬ IndexText k i)) := by
    rcases hv with ⟨m, rfl, hm⟩ | ⟨l, i, rfl, hk, hl⟩
    · rintro (⟨h, _⟩ | ⟨l, he, _⟩)
      · exact h m rfl
      · cases he
    · rintro (⟨_, h⟩ | ⟨l', he, h⟩)
      · exact h l rfl
      · exact h _ hk
  have hn3 : ¬ (∃ l, ∃ i : Int, v = .arr l ∧ IndexText k i ∧ i < 0) := by
    rcases hv with ⟨m, rfl, hm⟩ | ⟨l, i, rfl, hk, hl⟩
    · rintro ⟨l, i, he, _⟩; cases he
    · rintro ⟨l', j, he, h1, h2⟩
      have : (i : Int) = j := IntegerText.unique hk h1
      omega
  refine ⟨?_, ?_, ?_, hr.diverge⟩
  · intro w
    rw [hr.ok, hat]
    apply or_congr_right
    apply and_congr_right
    intro _
    constructor
    · rintro ⟨u, k', h1, h2⟩; exact ⟨u, k', (hst _ _).mpr (.inr h1), h2⟩
    · rintro ⟨u, k', h1, h2⟩
      rcases (hst _ _).mp h1 with ⟨rfl, rfl⟩ | h1
      · exact absurd h2 hn1
      · exact ⟨u, k', h1, h2⟩
  · rw [hr.err]
    constructor
    · rintro ⟨u, k', h1, h2⟩; exact ⟨u, k', (hst _ _).mpr (.inr h1), h2⟩
    · rintro ⟨u, k', h1, h2⟩
      rcases (hst _ _).mp h1 with ⟨rfl, rfl⟩ | h1
      · exact absurd h2 hn2
      · exact ⟨u, k', h1, h2⟩
  · rw [hr.panic]
    constructor
    · rintro ⟨u, k', h1, h2⟩; exact ⟨u, k', (hst _ _).mpr (.inr h1), h2⟩
    · rintro ⟨u, k', h1, h2⟩
      rcases (hst _ _).mp h1 with ⟨rfl, rfl⟩ | h1
      · exact absurd h2 hn3
      · exact ⟨u, k', h1, h2⟩

/-- The three ways to stop at the first key. -/
theorem LookupSpec.stop {v : Value} {k : String} {path : List String} {r : Res Value}
    (hno : ∀ x, ¬ ((∃ m, v = .obj m ∧ m.lookup k = some x) ∨ (∃ l, ∃ i : Nat, v = .arr l ∧ IndexText k i ∧ l[i]? = some x)))
    (hok : ∀ w, r = .ok w ↔ w = .null ∧ ((∃ m, v = .obj m ∧ m.lookup k = none) ∨ (∃ l, ∃ i : Nat, v = .arr l ∧ IndexText k i ∧ l.length ≤ i)))
    (herr : (∃ msg, r = .error (.err msg)) ↔ (((∀ m, v ≠ .obj m) ∧ (∀ l, v ≠ .arr l)) ∨ (∃ l, v = .arr l ∧ ∀ i, ¬ IndexText k i)))
    (hp : (∃ msg, r = .error (.panic msg)) ↔ (∃ l, ∃ i : Int, v = .arr l ∧ IndexText k i ∧ i < 0)) (hd : r ≠ .error .diverge) :
    LookupSpec v (k :: path) r := by
  have hat : ∀ w, ¬ AtPath v (k :: path) w := by
    intro w h
    rcases atPath_cons_iff.mp h with ⟨m, u, rfl, h1, _⟩ | ⟨l, i, u, rfl, h1, h2, _⟩
    · exact hno u (.inl ⟨m, rfl, h1⟩)
    · exact hno u (.inr ⟨l, i, rfl, h1, h2⟩)
  have hst : ∀ u k', Stops v (k :: path) u k' ↔ (u = v ∧ k' = k) := by
    intro u k'
    rw [stops_cons_iff]
    constructor
    · rintro (h | ⟨m, x, rfl, h1, _⟩ | ⟨l, i, x, rfl, h1, h2, _⟩)
      · exact h
      · exact absurd (.inl ⟨m, rfl, h1⟩) (hno x)
      · exact absurd (.inr ⟨l, i, rfl, h1, h2⟩) (hno x)
    · exact .inl
  have hone : ∀ P : Value → String → Prop, (∃ u k', Stops v (k :: path) u k' ∧ P u k') ↔ P v k := by
    intro P
    constructor
    · rintro ⟨u, k', h1, h2⟩
      obtain ⟨rfl, rfl⟩ := (hst _ _).mp h1
      exact h2
    · intro h; exact ⟨v, k, (hst _ _).mpr ⟨rfl, rfl⟩, h⟩
  refine ⟨?_, ?_, ?_, hd⟩
  · intro w
    rw [hok]
    unfold Missing
    rw [hone (fun u k => ((∃ m, u = .obj m ∧ m.lookup k = none) ∨ (∃ l, ∃ i : Nat, u = .arr l ∧ IndexText k i ∧ l.length ≤ i)))]
    simp [hat]
  · rw [herr]
    unfold Blocked
    rw [hone (fun u k => (((∀ m, u ≠ .obj m) ∧ (∀ l, u ≠ .arr l)) ∨ (∃ l, u = .arr l ∧ ∀ i, ¬ IndexText k i)))]
  · rw [hp]
    unfold NegativeIndex
    rw [hone (fun u k => ∃ l, ∃ i : Int, u = .arr l ∧ IndexText k i ∧ i < 0)]

theorem LookupSpec.missingKey {m : List (String × Value)} {k : String} {path : List String} (h : m.lookup k = none) :
    LookupSpec (.obj m) (k :: path) (.ok .null) := by
  refine .stop ?_ ?_ ?_ ?_ (by simp)
  · rintro x (⟨m', he, h1⟩ | ⟨l, i, he, _⟩)
    · cases he; rw [h] at h1; cases h1
    · cases he
  · intro w; simp only [Except.ok.injEq]
    constructor
    · rintro rfl; exact ⟨rfl, .inl ⟨m, rfl, h⟩⟩
    · rintro ⟨rfl, _⟩; rfl
  · simp
  · simp

theorem LookupSpec.notIndex {l : List Value} {k : String} {path : List String} {msg : String} (h : ∀ i, ¬ IndexText k i) :
    LookupSpec (.arr l) (k :: path) (.error (.err msg)) := by
  refine .stop ?_ ?_ ?_ ?_ (by simp)
  · rintro x (⟨m', he, h1⟩ | ⟨l, i, he, h1, _⟩)
    · cases he
    · exact h _ h1
  · intro w; simp [h]
  · simp [h]
  · simp [h]

theorem LookupSpec.pastEnd {l : List Value} {k : String} {path : List String} {i : Int} (hk : IndexText k i) (h : (l.length : Int) ≤ i) :
    LookupSpec (.arr l) (k :: path) (.ok .null) := by
  have hu : ∀ {j : Int}, IndexText k j → j = i := fun hj => IntegerText.unique hj hk
  refine .stop ?_ ?_ ?_ ?_ (by simp)
  · rintro x (⟨m', he, h1⟩ | ⟨l', j, he, h1, h2⟩)
    · cases he
    · cases he
      have := hu h1
      obtain ⟨hlt, _⟩ := List.getElem?_eq_some_iff.mp h2
      omega
  · intro w; simp only [Except.ok.injEq]
    constructor
    · rintro rfl
      refine ⟨rfl, .inr ⟨l, i.toNat, rfl, ?_, by omega⟩⟩
      have : (i.toNat : Int) = i := by omega
      rw [this]; exact hk
    · rintro ⟨rfl, _⟩; rfl
  · constructor
    · rintro ⟨_, h⟩; cases h
    · rintro (⟨_, h'⟩ | ⟨l', he, h'⟩)
      · exact absurd rfl (h' l)
      · exact absurd hk (h' i)
  · constructor
    · rintro ⟨_, h⟩; cases h
    · rintro ⟨l', j, he, h1, h2⟩
      have := hu h1
      omega

theorem LookupSpec.negative {l : List Value} {k : String} {path : List String} {msg : String} {i : Int} (hk : IndexText k i) (h : i < 0) :
    LookupSpec (.arr l) (k :: path) (.error (.panic msg)) := by
  have hu : ∀ {j : Int}, IndexText k j → j = i := fun hj => IntegerText.unique hj hk
  refine .stop ?_ ?_ ?_ ?_ (by simp)
  · rintro x (⟨m', he, h1⟩ | ⟨l', j, he, h1, h2⟩)
    · cases he
    · have := hu h1; omega
  · intro w
    constructor
    · intro h; cases h
    · rintro ⟨_, ⟨m', he, h1⟩ | ⟨l', j, he, h1, h2⟩⟩
      · cases he
      · have := hu h1; omega
  · constructor
    · rintro ⟨_, h⟩; cases h
    · rintro (⟨_, h'⟩ | ⟨l', he, h'⟩)
      · exact absurd rfl (h' l)
      · exact absurd hk (h' i)
  · constructor
    · intro _; exact ⟨l, i, rfl, hk, h⟩
    · intro _; exact ⟨_, rfl⟩

theorem LookupSpec.primitive {v : Value} {k : String} {path : List String} {msg : String} (h1 : ∀ m, v ≠ .obj m) (h2 : ∀ l, v ≠ .arr l) :
    LookupSpec v (k :: path) (.error (.err msg)) := by
  refine .stop ?_ ?_ ?_ ?_ (by simp)
  · rintro x (⟨m', he, _⟩ | ⟨l', j, he, _⟩)
    · exact h1 _ he
    · exact h2 _ he
  · intro w
    constructor
    · intro h; cases h
    · rintro ⟨_, ⟨m', he, _⟩ | ⟨l', j, he, _⟩⟩
      · exact absurd he (h1 _)
      · exact absurd he (h2 _)
  · constructor
    · intro _; exact .inl ⟨h1, h2⟩
    · intro _; exact ⟨_, rfl⟩
  · constructor
    · rintro ⟨_, h⟩; cases h
    · rintro ⟨l', j, he, _⟩; exact absurd he (h2 _)

theorem goIndex_ok {α : Type} {l : List α} {i : Int} (h : 0 ≤ i) (h' : i < l.length) :
    ∃ v, l[i.toNat]? = some v ∧ goIndex l i = .ok v := by
  have hlt : i.toNat < l.length := by omega
  refine ⟨l[i.toNat], List.getElem?_eq_getElem hlt, ?_⟩
  unfold goIndex
  rw [if_neg (by omega), List.getElem?_eq_getElem hlt]

theorem getSubValue_spec : ∀ (path : List String) (v : Value), LookupSpec v path (getSubValue v path) := by
  intro path
  induction path with
  | nil => intro v; exact .nil v
  | cons k path ih =>
    intro v
    cases v with
    | obj m =>
      simp only [getSubValue, mapGet_eq_lookup]
      cases h : m.lookup k with
      | none => exact .missingKey h
      | some x => exact .step (ih x) (.inl ⟨m, rfl, h⟩)
    | arr l =>
      simp only [getSubValue]
      cases h : atoi (utf8 k.toList) with
      | none => exact .notIndex (fun i hi => by rw [(atoi_iff _ _).mpr hi] at h; cases h)
      | some i =>
        have hk : IndexText k i := (atoi_iff _ _).mp h
        simp only
        split
        · rename_i hge; exact .pastEnd hk hge
        · rename_i hlt
          by_cases hneg : i < 0
          · have : goIndex l i = .error (.panic "index out of range") := by simp [goIndex, hneg]
            rw [this]
            exact .negative hk hneg
          · obtain ⟨x, hx, hg⟩ := goIndex_ok (l := l) (i := i) (by omega) (by omega)
            rw [hg]
            refine .step (ih x) (.inr ⟨l, i.toNat, rfl, ?_, hx⟩)
            have : (i.toNat : Int) = i := by omega
            rw [this]; exact hk
    | null => exact .primitive (by simp) (by simp)
    | bool _ => exact .primitive (by simp) (by simp)
    | int _ => exact .primitive (by simp) (by simp)
    | float _ => exact .primitive (by simp) (by simp)
    | str _ => exact .primitive (by simp) (by simp)

theorem jsonGetSubValue_spec : ∀ (path : List String) (v : Value), LookupSpec v path (jsonGetSubValue v path) := by
  intro path
  induction path with
  | nil => intro v; exact .nil v
  | cons k path ih =>
    intro v
    cases v with
    | obj m =>
      simp only [jsonGetSubValue, mapGet_eq_lookup]
      cases h : m.lookup k with
      | none => exact .missingKey h
      | some x => exact .step (ih x) (.inl ⟨m, rfl, h⟩)
    | arr l =>
      simp only [jsonGetSubValue]
      cases h : atoi (utf8 k.toList) with
      | none => exact .notIndex (fun i hi => by rw [(atoi_iff _ _).mpr hi] at h; cases h)
      | some i =>
        have hk : IndexText k i := (atoi_iff _ _).mp h
        simp only
        split
        · rename_i hge; exact .pastEnd hk hge
        · rename_i hlt
          by_cases hneg : i < 0
          · have : goIndex l i = .error (.panic "index out of range") := by simp [goIndex, hneg]
            rw [this]
            exact .negative hk hneg
          · obtain ⟨x, hx, hg⟩ := goIndex_ok (l := l) (i := i) (by omega) (by omega)
            rw [hg]
            refine .step (ih x) (.inr ⟨l, i.toNat, rfl, ?_, hx⟩)
            have : (i.toNat : Int) = i := by omega
            rw [this]; exact hk
    | null => exact .primitive (by simp) (by simp)
    | bool _ => exact .primitive (by simp) (by simp)
    | int _ => exact .primitive (by simp) (by simp)
    | float _ => exact .primitive (by simp) (by simp)
    | str _ => exact .primitive (by simp) (by simp)

end Rodb
