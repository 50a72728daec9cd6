import Verif.Model.Sort
import Verif.Spec.Order
namespace Rodb
open Spec

theorem bytesLt_irrefl : ∀ a, bytesLt a a = false := by
  intro a
  induction a with
  | nil => rfl
  | cons x a ih => simp [bytesLt, ih]

theorem bytesLt_iff : ∀ a b, bytesLt a b = true ↔ textBefore a b := by
  intro a
  induction a with
  | nil =>
    intro b
    cases b with
    | nil =>
      simp only [bytesLt, textBefore]
      constructor
      · intro h; cases h
      · rintro (⟨s, h1, h2⟩ | ⟨p, x, y, s, t, h1, _⟩)
        · exact absurd h2.symm (by simpa using h1)
        · simp at h1
    | cons y b =>
      simp only [bytesLt, true_iff]
      exact Or.inl ⟨y :: b, by simp, rfl⟩
  | cons x a ih =>
    intro b
    cases b with
    | nil =>
      simp only [bytesLt, textBefore]
      constructor
      · intro h; cases h
      · rintro (⟨s, h1, h2⟩ | ⟨p, x, y, s, t, _, h1, _⟩)
        · simp at h2
        · simp at h1
    | cons y b =>
      simp only [bytesLt]
      by_cases h : x < y
      · simp only [h, if_true, true_iff]
        exact Or.inr ⟨[], x, y, a, b, rfl, rfl, h⟩
      · rw [if_neg h]
        by_cases h2 : y < x
        · simp only [h2, if_true, Bool.false_eq_true, false_iff]
          rintro (⟨s, h3, h4⟩ | ⟨p, x', y', s, t, h3, h4, h5⟩)
          · simp only [List.cons_append, List.cons.injEq] at h4
            rw [h4.1] at h2
            exact UInt8.lt_irrefl _ h2
          · cases p with
            | nil =>
              simp only [List.nil_append, List.cons.injEq] at h3 h4
              rw [h3.1, h4.1] at h
              exact h h5
            | cons z p =>
              simp only [List.cons_append, List.cons.injEq] at h3 h4
              rw [h3.1, h4.1] at h2
              exact UInt8.lt_irrefl _ h2
        · rw [if_neg h2, ih]
          have hxy : x = y := UInt8.le_antisymm (UInt8.not_lt.mp h2) (UInt8.not_lt.mp h)
          subst hxy
          constructor
          · rintro (⟨s, h3, h4⟩ | ⟨p, x', y', s, t, h3, h4, h5⟩)
            · exact Or.inl ⟨s, h3, by rw [h4]; rfl⟩
            · exact Or.inr ⟨x :: p, x', y', s, t, by rw [h3]; rfl, by rw [h4]; rfl, h5⟩
          · rintro (⟨s, h3, h4⟩ | ⟨p, x', y', s, t, h3, h4, h5⟩)
            · simp only [List.cons_append, List.cons.injEq, true_and] at h4
              exact Or.inl ⟨s, h3, h4⟩
            · cases p with
              | nil =>
                simp only [List.nil_append, List.cons.injEq] at h3 h4
                rw [← h3.1, ← h4.1] at h5
                exact absurd h5 h
              | cons z p =>
                simp only [List.cons_append, List.cons.injEq] at h3 h4
                exact Or.inr ⟨p, x', y', s, t, h3.2, h4.2, h5⟩

theorem bytesLt_trans : ∀ a b c, bytesLt a b = true → bytesLt b c = true → bytesLt a c = true := by
  intro a
  induction a with
  | nil =>
    intro b c h1 h2
    cases b <;> cases c <;> simp [bytesLt] at h1 h2 ⊢
  | cons x a ih =>
    intro b c h1 h2
    cases b with
    | nil => simp [bytesLt] at h1
    | cons y b =>
      cases c with
      | nil => simp [bytesLt] at h2
      | cons z c =>
        simp only [bytesLt] at h1 h2 ⊢
        by_cases hxy : x < y
        · by_cases hyz : y < z
          · rw [if_pos (UInt8.lt_trans hxy hyz)]
          · rw [if_neg hyz] at h2
            by_cases hzy : z < y
            · rw [if_pos hzy] at h2; cases h2
            · have : y = z := UInt8.le_antisymm (UInt8.not_lt.mp hzy) (UInt8.not_lt.mp hyz)
              rw [← this, if_pos hxy]
        · rw [if_neg hxy] at h1
          by_cases hyx : y < x
          · rw [if_pos hyx] at h1; cases h1
          · rw [if_neg hyx] at h1
            have : x = y := UInt8.le_antisymm (UInt8.not_lt.mp hyx) (UInt8.not_lt.mp hxy)
            subst this
            by_cases hxz : x < z
            · rw [if_pos hxz]
            · rw [if_neg hxz] at h2 ⊢
              by_cases hzx : z < x
              · rw [if_pos hzx] at h2; cases h2
              · rw [if_neg hzx] at h2 ⊢
                exact ih _ _ h1 h2

theorem bytesLt_tri : ∀ a b, a ≠ b → bytesLt a b = false → bytesLt b a = true := by
  intro a
  induction a with
  | nil => intro b h1 h2; cases b <;> simp [bytesLt] at h1 h2 ⊢
  | cons x a ih =>
    intro b h1 h2
    cases b with
    | nil => simp [bytesLt]
    | cons y b =>
      simp only [bytesLt] at h2 ⊢
      by_cases hxy : x < y
      · rw [if_pos hxy] at h2; cases h2
      · rw [if_neg hxy] at h2
        by_cases hyx : y < x
        · rw [if_pos hyx]
        · rw [if_neg hyx] at h2
          rw [if_neg hyx, if_neg hxy]
          have : x = y := UInt8.le_antisymm (UInt8.not_lt.mp hyx) (UInt8.not_lt.mp hxy)
          subst this
          exact ih b (fun e => h1 (by rw [e])) h2

theorem floatLt_iff (a b : GoFloat) : a.lt b = true ↔ floatBefore a b := by
  cases a <;> cases b <;> simp [GoFloat.lt, floatBefore]

theorem valueBefore_irrefl (a : Value) : ¬ valueBefore a a := by
  cases a with
  | str a => simp [valueBefore, ← bytesLt_iff, bytesLt_irrefl]
  | int a => simp [valueBefore]
  | float a => cases a <;> simp [valueBefore, floatBefore]
  | bool a => cases a <;> simp [valueBefore]
  | _ => simp [valueBefore]

theorem valueBefore_trans {a b c : Value} (h1 : valueBefore a b) (h2 : valueBefore b c) : valueBefore a c := by
  cases b with
  | str b =>
    cases a <;> simp only [valueBefore] at h1
    cases c <;> simp only [valueBefore] at h2
    simp only [valueBefore]
    rw [← bytesLt_iff] at h1 h2 ⊢
    exact bytesLt_trans _ _ _ h1 h2
  | int b =>
    cases a <;> simp only [valueBefore] at h1
    cases c <;> simp only [valueBefore] at h2
    simp only [valueBefore]
    omega
  | float b =>
    cases a <;> simp only [valueBefore] at h1
    cases c <;> simp only [valueBefore] at h2
    rename_i a c
    cases a <;> cases b <;> cases c <;> simp only [valueBefore, floatBefore] at h1 h2 ⊢ <;> omega
  | bool b =>
    cases a <;> simp only [valueBefore] at h1
    cases c <;> simp only [valueBefore] at h2
    simp only [valueBefore]
    exact ⟨h1.1, h2.2⟩
  | _ => cases a <;> simp [valueBefore] at h1

theorem valueBefore_tri {a b : Value} (h : SamePrimitive a b) : valueBefore a b ∨ a = b ∨ valueBefore b a := by
  cases a with
  | str a =>
    cases b <;> simp only [SamePrimitive] at h
    rename_i b
    simp only [valueBefore, ← bytesLt_iff]
    by_cases h1 : a = b
    · exact Or.inr (Or.inl (by rw [h1]))
    · cases h2 : bytesLt a b with
      | true => exact Or.inl rfl
      | false => exact Or.inr (Or.inr (bytesLt_tri _ _ h1 h2))
  | int a =>
    cases b <;> simp only [SamePrimitive] at h
    simp only [valueBefore, Value.int.injEq]
    omega
  | float a =>
    cases b <;> simp only [SamePrimitive] at h
    rename_i b
    obtain ⟨h1, h2⟩ := h
    cases a <;> cases b <;> simp only [valueBefore, floatBefore, Value.float.injEq, GoFloat.fin.injEq, ne_eq, not_true] at h1 h2 ⊢ <;> first
      | omega
      | simp
  | bool a =>
    cases b <;> simp only [SamePrimitive] at h
    rename_i b
    cases a <;> cases b <;> simp [valueBefore]
  | _ => cases b <;> simp [SamePrimitive] at h

theorem SamePrimitive.symm {a b : Value} (h : SamePrimitive a b) : SamePrimitive b a := by
  cases a <;> cases b <;> simp only [SamePrimitive] at h ⊢
  exact ⟨h.2, h.1⟩

theorem SamePrimitive.refl_left {a b : Value} (h : SamePrimitive a b) : SamePrimitive a a := by
  cases a <;> cases b <;> simp only [SamePrimitive] at h ⊢
  exact ⟨h.1, h.1⟩

/-- `compare` decides the natural order. -/
theorem compare_spec {a b : Value} (h : SamePrimitive a b) :
    (compare a b = .ok none ∧ a = b) ∨ (compare a b = .ok (some true) ∧ valueBefore a b) ∨
    (compare a b = .ok (some false) ∧ valueBefore b a) := by
  have htri := valueBefore_tri h
  cases a with
  | str a =>
    cases b <;> simp only [SamePrimitive] at h
    rename_i b
    simp only [compare]
    by_cases h1 : a = b
    · rw [if_pos h1]; exact Or.inl ⟨rfl, by rw [h1]⟩
    · rw [if_neg h1]
      cases h2 : bytesLt a b with
      | true => exact Or.inr (Or.inl ⟨rfl, (bytesLt_iff _ _).mp h2⟩)
      | false => exact Or.inr (Or.inr ⟨rfl, (bytesLt_iff _ _).mp (bytesLt_tri _ _ h1 h2)⟩)
  | int a =>
    cases b <;> simp only [SamePrimitive] at h
    rename_i b
    simp only [compare, valueBefore] at htri ⊢
    by_cases h1 : a = b
    · rw [if_pos h1]; exact Or.inl ⟨rfl, by rw [h1]⟩
    · rw [if_neg h1]
      by_cases h2 : a < b
      · exact Or.inr (Or.inl ⟨by simp [h2], h2⟩)
      · exact Or.inr (Or.inr ⟨by simp [h2], by omega⟩)
  | float a =>
    cases b <;> simp only [SamePrimitive] at h
    rename_i b
    obtain ⟨h1, h2⟩ := h
    simp only [compare]
    have heq : a.eq b = true ↔ a = b := by cases a <;> cases b <;> simp [GoFloat.eq] at h1 h2 ⊢
    by_cases h3 : a = b
    · rw [if_pos (heq.mpr h3)]; exact Or.inl ⟨rfl, by rw [h3]⟩
    · rw [if_neg (fun e => h3 (heq.mp e))]
      cases h4 : a.lt b with
      | true => exact Or.inr (Or.inl ⟨rfl, (floatLt_iff _ _).mp h4⟩)
      | false =>
        refine Or.inr (Or.inr ⟨rfl, ?_⟩)
        rcases htri with h5 | h5 | h5
        · simp only [valueBefore, ← floatLt_iff, h4] at h5; cases h5
        · cases h5; exact absurd rfl h3
        · exact h5
  | bool a =>
    cases b <;> simp only [SamePrimitive] at h
    rename_i b
    cases a <;> cases b <;> simp [compare, valueBefore]
  | _ => cases b <;> simp [SamePrimitive] at h

/-- The criteria of a configuration as (property, ascending?). -/
def criteria (config : List SortConfig) : List (String × Bool) := config.map (fun c => (c.property, c.isAscending))

theorem recordLess_iff {records : List Rec} : ∀ {config : List SortConfig}, (∀ c ∈ config, OneType records c.property) →
    ∀ r ∈ records, ∀ s ∈ records, (recordLess config r s = true ↔ mustPrecede (criteria config) r s) := by
  intro config
  induction config with
  | nil => intro _ r _ s _; simp [recordLess, criteria, mustPrecede]
  | cons c config ih =>
    intro h r hr s hs
    have ih' := ih (fun c' hc => h c' (List.mem_cons_of_mem _ hc)) r hr s hs
    obtain ⟨v, w, h1, h2, h3⟩ := h c List.mem_cons_self r hr s hs
    simp only [recordLess, sortValue, h1, h2]
    have hm : mustPrecede (criteria (c :: config)) r s ↔
        ((if c.isAscending then valueBefore v w else valueBefore w v) ∨ (v = w ∧ mustPrecede (criteria config) r s)) := by
      simp only [criteria, List.map_cons, mustPrecede, h1, h2, Except.ok.injEq]
      constructor
      · rintro ⟨_, _, rfl, rfl, h⟩; exact h
      · intro h; exact ⟨v, w, rfl, rfl, h⟩
    rw [hm]
    have hasymm : ∀ {a b}, valueBefore a b → ¬ valueBefore b a := fun h1 h2 => valueBefore_irrefl _ (valueBefore_trans h1 h2)
    rcases compare_spec h3 with ⟨h4, h5⟩ | ⟨h4, h5⟩ | ⟨h4, h5⟩
    · rw [h4]
      subst h5
      simp only [ih', true_and]
      constructor
      · exact Or.inr
      · rintro (h6 | h6)
        · split at h6 <;> exact absurd h6 (valueBefore_irrefl _)
        · exact h6
    · rw [h4]
      have hne : v ≠ w := by rintro rfl; exact valueBefore_irrefl _ h5
      cases c.isAscending <;> simp [h5, hne, hasymm h5]
    · rw [h4]
      have hne : v ≠ w := by rintro rfl; exact valueBefore_irrefl _ h5
      cases c.isAscending <;> simp [h5, hne, hasymm h5]

/-- Equal in all the criteria. -/
def sameKeys : List (String × Bool) → Rec → Rec → Prop
  | [], _, _ => True
  | (p, _) :: rest, r, s => r.get p = s.get p ∧ sameKeys rest r s

theorem dir_trans {asc : Bool} {a b c : Value} (h1 : if asc then valueBefore a b else valueBefore b a)
    (h2 : if asc then valueBefore b c else valueBefore c b) : if asc then valueBefore a c else valueBefore c a := by
  cases asc with
  | true => exact valueBefore_trans h1 h2
  | false => exact valueBefore_trans h2 h1

theorem mustPrecede_irrefl : ∀ (cs : List (String × Bool)) (r : Rec), ¬ mustPrecede cs r r := by
  intro cs
  induction cs with
  | nil => intro r h; exact h
  | cons c cs ih =>
    intro r h
    obtain ⟨v, w, h1, h2, h3⟩ := h
    rw [h1] at h2
    cases h2
    rcases h3 with h3 | ⟨_, h3⟩
    · split at h3 <;> exact valueBefore_irrefl _ h3
    · exact ih r h3

theorem mustPrecede_trans : ∀ (cs : List (String × Bool)) (r s t : Rec), mustPrecede cs r s → mustPrecede cs s t → mustPrecede cs r t := by
  intro cs
  induction cs with
  | nil => intro r s t h _; exact h
  | cons c cs ih =>
    intro r s t h g
    obtain ⟨v, w, h1, h2, h3⟩ := h
    obtain ⟨w', x, g1, g2, g3⟩ := g
    rw [h2] at g1
    cases g1
    refine ⟨v, x, h1, g2, ?_⟩
    rcases h3 with h3 | ⟨rfl, h3⟩
    · rcases g3 with g3 | ⟨rfl, g3⟩
      · exact Or.inl (dir_trans h3 g3)
      · exact Or.inl h3
    · rcases g3 with g3 | ⟨rfl, g3⟩
      · exact Or.inl g3
      · exact Or.inr ⟨rfl, ih r s t h3 g3⟩

theorem mustPrecede_same : ∀ (cs : List (String × Bool)) (r s t : Rec), sameKeys cs r s → mustPrecede cs r t → mustPrecede cs s t := by
  intro cs
  induction cs with
  | nil => intro r s t _ h; exact h
  | cons c cs ih =>
    intro r s t h g
    obtain ⟨w', x, g1, g2, g3⟩ := g
    refine ⟨w', x, by rw [← h.1]; exact g1, g2, ?_⟩
    rcases g3 with g3 | ⟨e, g3⟩
    · exact Or.inl g3
    · exact Or.inr ⟨e, ih r s t h.2 g3⟩

theorem mustPrecede_tri {records : List Rec} : ∀ (cs : List (String × Bool)), (∀ c ∈ cs, OneType records c.1) →
    ∀ r ∈ records, ∀ s ∈ records, mustPrecede cs r s ∨ sameKeys cs r s ∨ mustPrecede cs s r := by
  intro cs
  induction cs with
  | nil => intro _ r _ s _; exact Or.inr (Or.inl trivial)
  | cons c cs ih =>
    intro h r hr s hs
    obtain ⟨p, asc⟩ := c
    obtain ⟨v, w, h1, h2, h3⟩ := h (p, asc) List.mem_cons_self r hr s hs
    simp only at h1 h2
    have hv := valueBefore_tri h3
    by_cases heq : v = w
    · subst heq
      rcases ih (fun c' hc => h c' (List.mem_cons_of_mem _ hc)) r hr s hs with h4 | h4 | h4
      · exact Or.inl ⟨v, v, h1, h2, Or.inr ⟨rfl, h4⟩⟩
      · exact Or.inr (Or.inl ⟨by rw [h1, h2], h4⟩)
      · exact Or.inr (Or.inr ⟨v, v, h2, h1, Or.inr ⟨rfl, h4⟩⟩)
    · cases asc with
      | true =>
        rcases hv with h4 | h4 | h4
        · exact Or.inl ⟨v, w, h1, h2, Or.inl h4⟩
        · exact absurd h4 heq
        · exact Or.inr (Or.inr ⟨w, v, h2, h1, Or.inl h4⟩)
      | false =>
        rcases hv with h4 | h4 | h4
        · exact Or.inr (Or.inr ⟨w, v, h2, h1, Or.inl h4⟩)
        · exact absurd h4 heq
        · exact Or.inl ⟨v, w, h1, h2, Or.inl h4⟩

theorem recordLess_valid {records : List Rec} {config : List SortConfig} (h : ∀ c ∈ config, OneType records c.property) :
    ValidLess (recordLess config) records := by
  have hiff := recordLess_iff h
  have htri := mustPrecede_tri (records := records) (criteria config) (by
    intro c hc
    obtain ⟨c', h1, rfl⟩ := List.mem_map.mp hc
    exact h c' h1)
  have hfalse : ∀ a ∈ records, ∀ b ∈ records, (recordLess config a b = false ↔ ¬ mustPrecede (criteria config) a b) := by
    intro a ha b hb
    rw [← hiff a ha b hb]
    simp
  refine ⟨?_, ?_, ?_⟩
  · intro a ha
    exact (hfalse a ha a ha).mpr (mustPrecede_irrefl _ _)
  · intro a ha b hb c hc h1 h2
    rw [hiff a ha b hb] at h1
    rw [hiff b hb c hc] at h2
    exact (hiff a ha c hc).mpr (mustPrecede_trans _ _ _ _ h1 h2)
  · intro a ha b hb c hc h1 h2
    rw [hfalse a ha b hb] at h1
    rw [hfalse b hb c hc] at h2
    rw [hfalse a ha c hc]
    intro h3
    rcases htri a ha b hb with h4 | h4 | h4
    · exact h1 h4
    · exact h2 (mustPrecede_same _ _ _ _ h4 h3)
    · exact h2 (mustPrecede_trans _ _ _ _ h4 h3)

/-! ### Insertion sort meets the contract -/

theorem insertRev_perm {α : Type} (less : α → α → Bool) (x : α) : ∀ l : List α, (insertRev less x l).Perm (x :: l) := by
  intro l
  induction l with
  | nil => exact List.Perm.refl _
  | cons p l ih =>
    simp only [insertRev]
    split
    · exact (List.Perm.cons p ih).trans (List.Perm.swap x p l)
    · exact List.Perm.refl _

theorem insertRev_sorted {α : Type} {less : α → α → Bool} {all : List α} (hv : ValidLess less all) {x : α} (hx : x ∈ all) :
    ∀ {l : List α}, (∀ y ∈ l, y ∈ all) → l.Pairwise (fun a b => less a b = false) →
      (insertRev less x l).Pairwise (fun a b => less a b = false) := by
  intro l
  induction l with
  | nil => intro _ _; simp [insertRev]
  | cons p l ih =>
    intro hl hp
    simp only [insertRev]
    have hp' := List.pairwise_cons.mp hp
    have hpm := hl p List.mem_cons_self
    split
    · rename_i hlt
      refine List.pairwise_cons.mpr ⟨?_, ih (fun y hy => hl y (List.mem_cons_of_mem _ hy)) hp'.2⟩
      intro y hy
      rcases List.mem_cons.mp ((insertRev_perm less x l).mem_iff.mp hy) with rfl | hy
      · cases h : less p y with
        | false => rfl
        | true =>
          have := hv.trans _ hx _ hpm _ hx hlt h
          rw [hv.irrefl _ hx] at this
          cases this
      · exact hp'.1 y hy
    · rename_i hlt
      refine List.pairwise_cons.mpr ⟨?_, hp⟩
      intro y hy
      have hxp : less x p = false := by simpa using hlt
      rcases List.mem_cons.mp hy with rfl | hy'
      · exact hxp
      · exact hv.negTrans _ hx _ hpm _ (hl y hy) hxp (hp'.1 y hy')

theorem insertion_fold_perm {α : Type} (less : α → α → Bool) : ∀ (l acc : List α),
    (l.foldl (fun rev x => insertRev less x rev) acc).Perm (l ++ acc) := by
  intro l
  induction l with
  | nil => intro acc; exact List.Perm.refl _
  | cons x l ih =>
    intro acc
    simp only [List.foldl_cons, List.cons_append]
    refine (ih _).trans ?_
    exact (List.Perm.append_left l (insertRev_perm less x acc)).trans List.perm_middle

theorem insertion_fold_sorted {α : Type} {less : α → α → Bool} {all : List α} (hv : ValidLess less all) : ∀ (l acc : List α),
    (∀ y ∈ l, y ∈ all) → (∀ y ∈ acc, y ∈ all) → acc.Pairwise (fun a b => less a b = false) →
    (l.foldl (fun rev x => insertRev less x rev) acc).Pairwise (fun a b => less a b = false) := by
  intro l
  induction l with
  | nil => intro acc _ _ h; exact h
  | cons x l ih =>
    intro acc hl hacc hp
    simp only [List.foldl_cons]
    refine ih _ (fun y hy => hl y (List.mem_cons_of_mem _ hy)) ?_ (insertRev_sorted hv (hl x List.mem_cons_self) hacc hp)
    intro y hy
    rcases List.mem_cons.mp ((insertRev_perm less x acc).mem_iff.mp hy) with rfl | hy
    · exact hl _ List.mem_cons_self
    · exact hacc y hy

theorem goInsertionSort_contract {α : Type} : SortContract (α := α) goInsertionSort := by
  constructor
  · intro less l
    unfold goInsertionSort
    refine (List.reverse_perm _).trans ?_
    simpa using insertion_fold_perm less l []
  · intro less l hv
    unfold goInsertionSort
    rw [List.pairwise_reverse]
    exact insertion_fold_sorted hv l [] (fun y hy => hy) (by simp) List.Pairwise.nil

end Rodb
