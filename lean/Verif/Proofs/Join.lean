import Verif.Model.Join
import Verif.Spec.Positions
/-
  Correctness of the join of position iterators.
-/
namespace Rodb
open Spec

/-- `L` is `L'` after some elements all smaller than `t`. -/
def Skips (t : Int) (L L' : List Int) : Prop := ∃ d, L = d ++ L' ∧ ∀ x ∈ d, x < t

theorem Skips.refl (t : Int) (L : List Int) : Skips t L L := ⟨[], rfl, by simp⟩

theorem Skips.mem {t : Int} {L L' : List Int} (h : Skips t L L') {x : Int} (hx : t ≤ x) : x ∈ L ↔ x ∈ L' := by
  obtain ⟨d, rfl, hd⟩ := h
  simp only [List.mem_append]
  constructor
  · rintro (h | h)
    · have := hd x h; omega
    · exact h
  · exact Or.inr

theorem Skips.increasing {t : Int} {L L' : List Int} (h : Skips t L L') (hi : Increasing L) : Increasing L' := by
  obtain ⟨d, rfl, _⟩ := h
  exact (List.pairwise_append.mp hi).2.1

theorem Skips.sub {t : Int} {L L' : List Int} (h : Skips t L L') {x : Int} (hx : x ∈ L') : x ∈ L := by
  obtain ⟨d, rfl, _⟩ := h
  exact List.mem_append.mpr (Or.inr hx)

theorem Skips.trans {t t' : Int} {L L' L'' : List Int} (h : Skips t L L') (h' : Skips t' L' L'') (ht : t ≤ t') :
    Skips t' L L'' := by
  obtain ⟨d, rfl, hd⟩ := h
  obtain ⟨d', rfl, hd'⟩ := h'
  refine ⟨d ++ d', by simp, ?_⟩
  intro x hx
  rcases List.mem_append.mp hx with h | h
  · have := hd x h; omega
  · exact hd' x h

theorem joinAdvance_spec (t cur : Int) (l : List Int) :
    (joinAdvance t cur (iterateList l) = (.ok none, []) ∧ ∀ x ∈ cur :: l, x < t) ∨
    (∃ cur' l', joinAdvance t cur (iterateList l) = (.ok (some cur'), iterateList l') ∧ t ≤ cur' ∧
      Skips t (cur :: l) (cur' :: l')) := by
  induction l generalizing cur with
  | nil =>
    simp only [iterateList, List.map_nil, joinAdvance]
    by_cases h : cur < t
    · left; simp [h]
    · right; exact ⟨cur, [], by simp [h], by omega, Skips.refl _ _⟩
  | cons p l ih =>
    by_cases h : cur < t
    · have he : joinAdvance t cur (iterateList (p :: l)) = joinAdvance t p (iterateList l) := by
        simp [iterateList, joinAdvance, h]
      rw [he]
      rcases ih p with ⟨h1, h2⟩ | ⟨cur', l', h1, h2, d, h3, h4⟩
      · left
        refine ⟨h1, ?_⟩
        intro x hx
        rcases List.mem_cons.mp hx with rfl | hx
        · exact h
        · exact h2 x hx
      · right
        refine ⟨cur', l', h1, h2, cur :: d, by rw [h3]; rfl, ?_⟩
        intro x hx
        rcases List.mem_cons.mp hx with rfl | hx
        · exact h
        · exact h4 x hx
    · right
      refine ⟨cur, p :: l, ?_, by omega, Skips.refl _ _⟩
      simp [iterateList, joinAdvance, h]

/-- Abstract view of the other lists: current value and the rest. -/
abbrev Others := List (Int × List Int)
def Others.enc (o : Others) : List (Int × PIter) := o.map (fun x => (x.1, iterateList x.2))
def Others.lists (o : Others) : List (List Int) := o.map (fun x => x.1 :: x.2)

/-- Pointwise `Skips` between two sets of lists. -/
def SkipsAll (t : Int) : Others → Others → Prop
  | [], [] => True
  | x :: o, y :: o' => Skips t (x.1 :: x.2) (y.1 :: y.2) ∧ SkipsAll t o o'
  | _, _ => False

theorem SkipsAll.refl (t : Int) (o : Others) : SkipsAll t o o := by
  induction o with
  | nil => trivial
  | cons x o ih => exact ⟨Skips.refl _ _, ih⟩

theorem SkipsAll.inAll {t : Int} : ∀ {o o' : Others}, SkipsAll t o o' → ∀ {x}, t ≤ x →
    (InAll o.lists x ↔ InAll o'.lists x) := by
  intro o
  induction o with
  | nil => intro o' h x _; cases o' with
    | nil => exact Iff.rfl
    | cons y o' => exact absurd h (by simp [SkipsAll])
  | cons a o ih =>
    intro o' h x hx
    cases o' with
    | nil => exact absurd h (by simp [SkipsAll])
    | cons b o' =>
      have h1 := h.1.mem hx
      have h2 := ih h.2 hx
      simp only [InAll, Others.lists, List.map_cons, List.forall_mem_cons] at h2 ⊢
      rw [h1, h2]

theorem SkipsAll.sub {t : Int} : ∀ {o o' : Others}, SkipsAll t o o' → ∀ {x}, InAll o'.lists x → InAll o.lists x := by
  intro o
  induction o with
  | nil => intro o' h x _; simp [InAll, Others.lists]
  | cons a o ih =>
    intro o' h x hx
    cases o' with
    | nil => exact absurd h (by simp [SkipsAll])
    | cons b o' =>
      simp only [InAll, Others.lists, List.map_cons, List.forall_mem_cons] at hx ⊢
      exact ⟨h.1.sub hx.1, ih h.2 hx.2⟩

theorem SkipsAll.increasing {t : Int} : ∀ {o o' : Others}, SkipsAll t o o' → (∀ l ∈ o.lists, Increasing l) →
    ∀ l ∈ o'.lists, Increasing l := by
  intro o
  induction o with
  | nil => intro o' h _; cases o' with
    | nil => simp [Others.lists]
    | cons y o' => exact absurd h (by simp [SkipsAll])
  | cons a o ih =>
    intro o' h hi
    cases o' with
    | nil => exact absurd h (by simp [SkipsAll])
    | cons b o' =>
      simp only [Others.lists, List.map_cons, List.forall_mem_cons] at hi ⊢
      exact ⟨h.1.increasing hi.1, ih h.2 hi.2⟩

theorem SkipsAll.trans {t t' : Int} (ht : t ≤ t') : ∀ {o o' o'' : Others}, SkipsAll t o o' → SkipsAll t' o' o'' →
    SkipsAll t' o o'' := by
  intro o
  induction o with
  | nil => intro o' o'' h h'; cases o' with
    | nil => exact h'
    | cons y o' => exact absurd h (by simp [SkipsAll])
  | cons a o ih =>
    intro o' o'' h h'
    cases o' with
    | nil => exact absurd h (by simp [SkipsAll])
    | cons b o' =>
      cases o'' with
      | nil => exact absurd h' (by simp [SkipsAll])
      | cons c o'' => exact ⟨h.1.trans h'.1 ht, ih h.2 h'.2⟩

/-- The iterators left in the other lists when the check stopped early. -/
def SuffixAll : List PIter → List (List Int) → Prop
  | [], [] => True
  | it :: its, L :: Ls => (∃ l, it = iterateList l ∧ l <:+ L) ∧ SuffixAll its Ls
  | _, _ => False

theorem suffixAll_enc (o : Others) : SuffixAll ((Others.enc o).map (·.2)) (Others.lists o) := by
  induction o with
  | nil => trivial
  | cons x o ih => exact ⟨⟨x.2, rfl, List.suffix_cons _ _⟩, ih⟩

theorem joinCheck_spec (t : Int) (o : Others) (hs : ∀ l ∈ o.lists, Increasing l) :
    (∃ o', joinCheck t o.enc = (.found, o'.enc) ∧ SkipsAll t o o' ∧ ∀ x ∈ o', x.1 = t) ∨
    (∃ o', joinCheck t o.enc = (.notFound, o'.enc) ∧ SkipsAll t o o' ∧ ¬ InAll o.lists t) ∨
    (∃ e, joinCheck t o.enc = (.ended, e) ∧ (∃ L ∈ o.lists, ∀ x ∈ L, x < t) ∧ SuffixAll (e.map (·.2)) o.lists) := by
  induction o with
  | nil => left; exact ⟨[], rfl, trivial, by simp⟩
  | cons x o ih =>
    obtain ⟨cur, l⟩ := x
    have he : Others.enc ((cur, l) :: o) = (cur, iterateList l) :: Others.enc o := rfl
    rw [he]
    simp only [joinCheck]
    rcases joinAdvance_spec t cur l with ⟨h1, h2⟩ | ⟨cur', l', h1, h2, h3⟩
    · right; right
      simp only [h1]
      refine ⟨_, rfl, ⟨cur :: l, by simp [Others.lists], h2⟩, ?_⟩
      exact ⟨⟨[], rfl, List.nil_suffix⟩, suffixAll_enc o⟩
    · simp only [h1]
      by_cases hc : cur' = t
      · simp only [hc, ne_eq, not_true_eq_false, if_false]
        subst hc
        rcases ih (fun l hl => hs l (List.mem_cons_of_mem _ hl)) with ⟨o', e1, e2, e3⟩ | ⟨o', e1, e2, e3⟩ | ⟨e, e1, ⟨L, e2, e3⟩, e4⟩
        · left
          refine ⟨(cur', l') :: o', by rw [e1]; rfl, ⟨h3, e2⟩, ?_⟩
          intro x hx
          rcases List.mem_cons.mp hx with rfl | hx
          · rfl
          · exact e3 x hx
        · right; left
          refine ⟨(cur', l') :: o', by rw [e1]; rfl, ⟨h3, e2⟩, ?_⟩
          intro h
          exact e3 (fun L hL => h L (by simp only [Others.lists, List.map_cons]; exact List.mem_cons_of_mem _ hL))
        · right; right
          refine ⟨_, by rw [e1], ⟨L, by simp only [Others.lists, List.map_cons]; exact List.mem_cons_of_mem _ e2, e3⟩, ?_⟩
          refine ⟨⟨l', rfl, ?_⟩, e4⟩
          obtain ⟨d, hd, _⟩ := h3
          exact ⟨d ++ [cur'], by simp [hd]⟩
      · rw [if_pos hc]
        right; left
        refine ⟨(cur', l') :: o, rfl, ⟨h3, SkipsAll.refl _ _⟩, ?_⟩
        intro h
        have h4 : t ∈ cur :: l := h _ (by simp [Others.lists])
        have h5 := (h3.mem (Int.le_refl t)).mp h4
        have h6 := h3.increasing (hs (cur :: l) (by simp [Others.lists]))
        rcases List.mem_cons.mp h5 with h7 | h7
        · exact hc h7.symm
        · have := (List.pairwise_cons.mp h6).1 t h7
          omega


/-- Iterators of a list of lists. -/
def encAll (ls : List (List Int)) : List PIter := ls.map iterateList

theorem suffixAll_lists : ∀ {its : List PIter} {Ls : List (List Int)}, SuffixAll its Ls →
    (∀ l ∈ Ls, Increasing l) → ∃ ls, its = encAll ls ∧ ls.length = Ls.length ∧ (∀ l ∈ ls, Increasing l) ∧
      ∀ x, InAll ls x → InAll Ls x := by
  intro its
  induction its with
  | nil => intro Ls h hi; cases Ls with
    | nil => exact ⟨[], rfl, rfl, by simp, fun _ h => h⟩
    | cons => exact absurd h (by simp [SuffixAll])
  | cons it its ih =>
    intro Ls h hi
    cases Ls with
    | nil => exact absurd h (by simp [SuffixAll])
    | cons L Ls =>
      obtain ⟨⟨l, rfl, hl⟩, h2⟩ := h
      obtain ⟨ls, rfl, hn, hs, hx⟩ := ih h2 (fun l hl => hi l (List.mem_cons_of_mem _ hl))
      refine ⟨l :: ls, rfl, by simp [hn], ?_, ?_⟩
      · intro l' hl'
        rcases List.mem_cons.mp hl' with rfl | h
        · exact List.Pairwise.sublist hl.sublist (hi L List.mem_cons_self)
        · exact hs l' h
      · intro x h
        simp only [InAll, List.forall_mem_cons] at h ⊢
        exact ⟨hl.subset h.1, hx x h.2⟩

/-- What one call of the join does on error-free, sorted iterators. -/
def CallSpec (ls : List (List Int)) (res : Res (Option Int) × List PIter) : Prop :=
  (∃ p ls', res = (.ok (some p), encAll ls') ∧ ls'.length = ls.length ∧ (∀ l ∈ ls', Increasing l) ∧
    InAll ls p ∧ (∀ x, InAll ls x → p ≤ x) ∧ (∀ x, InAll ls' x ↔ InAll ls x ∧ p < x) ∧
    (ls'.headD []).length < (ls.headD []).length) ∨
  (∃ ls', res = (.ok none, encAll ls') ∧ ls'.length = ls.length ∧ (∀ l ∈ ls', Increasing l) ∧
    (∀ x, ¬ InAll ls x) ∧ (∀ x, InAll ls' x → InAll ls x))

theorem inAll_cons {l : List Int} {ls : List (List Int)} {x : Int} : InAll (l :: ls) x ↔ x ∈ l ∧ InAll ls x := by
  simp [InAll]

theorem Others.enc_snd (o : Others) : o.enc.map (·.2) = encAll (o.map (·.2)) := by
  simp [Others.enc, encAll]

theorem found_after (t : Int) : ∀ (o : Others), (∀ l ∈ o.lists, Increasing l) → (∀ x ∈ o, x.1 = t) →
    (∀ l ∈ o.map (·.2), Increasing l) ∧ ∀ x, (InAll (o.map (·.2)) x ∧ t < x ↔ InAll o.lists x ∧ t < x) ∧
      (InAll (o.map (·.2)) x → o ≠ [] → t < x) := by
  intro o
  induction o with
  | nil => intro _ _; simp [InAll, Others.lists]
  | cons a o ih =>
    intro hi ht
    obtain ⟨c, l⟩ := a
    have hc : c = t := ht (c, l) List.mem_cons_self
    subst hc
    have hil : Increasing (c :: l) := hi _ (by simp [Others.lists])
    obtain ⟨h1, h2⟩ := ih (fun l hl => hi l (List.mem_cons_of_mem _ hl)) (fun x hx => ht x (List.mem_cons_of_mem _ hx))
    refine ⟨?_, ?_⟩
    · intro l' hl'
      rcases List.mem_cons.mp hl' with rfl | h
      · exact (List.pairwise_cons.mp hil).2
      · exact h1 l' h
    · intro x
      have h3 := h2 x
      simp only [List.map_cons, Others.lists, inAll_cons] at h3 ⊢
      refine ⟨?_, ?_⟩
      · constructor
        · rintro ⟨⟨a, b⟩, d⟩
          exact ⟨⟨List.mem_cons_of_mem _ a, (h3.1.mp ⟨b, d⟩).1⟩, d⟩
        · rintro ⟨⟨a, b⟩, d⟩
          refine ⟨⟨?_, (h3.1.mpr ⟨b, d⟩).1⟩, d⟩
          rcases List.mem_cons.mp a with h | h
          · omega
          · exact h
      · intro h _
        exact (List.pairwise_cons.mp hil).1 x h.1

theorem joinMain_spec (l : List Int) (o : Others) (hl : Increasing l) (hs : ∀ l ∈ o.lists, Increasing l) :
    (∃ p ls', joinMain (iterateList l) o.enc = (.ok (some p), encAll ls') ∧ ls'.length = o.length + 1 ∧
      (∀ l ∈ ls', Increasing l) ∧ InAll (l :: o.lists) p ∧ (∀ x, InAll (l :: o.lists) x → p ≤ x) ∧
      (∀ x, InAll ls' x ↔ InAll (l :: o.lists) x ∧ p < x) ∧ (ls'.headD []).length < l.length) ∨
    (∃ ls', joinMain (iterateList l) o.enc = (.ok none, encAll ls') ∧ ls'.length = o.length + 1 ∧
      (∀ l ∈ ls', Increasing l) ∧ (∀ x, ¬ InAll (l :: o.lists) x) ∧ (∀ x, InAll ls' x → InAll (l :: o.lists) x)) := by
  induction l generalizing o with
  | nil =>
    right
    refine ⟨[] :: o.map (·.2), ?_, by simp, ?_, by simp [inAll_cons], by simp [inAll_cons]⟩
    · simp [iterateList, joinMain, Others.enc_snd]
      simp [encAll, iterateList]
    · intro l' hl'
      rcases List.mem_cons.mp hl' with rfl | h
      · exact List.Pairwise.nil
      · obtain ⟨a, ha, rfl⟩ := List.mem_map.mp h
        exact (List.pairwise_cons.mp (hs (a.1 :: a.2) (List.mem_map.mpr ⟨a, ha, rfl⟩))).2
  | cons p l ih =>
    have hpl := List.pairwise_cons.mp hl
    have hstep : joinMain (iterateList (p :: l)) o.enc = (match joinCheck p o.enc with
      | (.found, others') => (.ok (some p), iterateList l :: others'.map (·.2))
      | (.ended, others') => (.ok none, iterateList l :: others'.map (·.2))
      | (.failed e, others') => (.error e, iterateList l :: others'.map (·.2))
      | (.notFound, others') => joinMain (iterateList l) others') := by
      rfl
    rw [hstep]
    rcases joinCheck_spec p o hs with ⟨o', h1, h2, h3⟩ | ⟨o', h1, h2, h3⟩ | ⟨e, h1, ⟨L, h2, h3⟩, h4⟩
    · left
      have hs' := h2.increasing hs
      have hlen : o'.length = o.length := by
        clear h1 h3 hs' hs hstep
        induction o generalizing o' with
        | nil => cases o' with
          | nil => rfl
          | cons => exact absurd h2 (by simp [SkipsAll])
        | cons a o iho => cases o' with
          | nil => exact absurd h2 (by simp [SkipsAll])
          | cons b o' => simp [iho o' h2.2]
      obtain ⟨g1, g2⟩ := found_after p o' hs' h3
      rw [h1]
      refine ⟨p, l :: o'.map (·.2), ?_, by simp [hlen], ?_, ?_, ?_, ?_, by simp⟩
      · simp [Others.enc_snd]; simp [encAll]
      · intro l' hl'
        rcases List.mem_cons.mp hl' with rfl | h
        · exact hpl.2
        · exact g1 l' h
      · rw [inAll_cons]
        refine ⟨List.mem_cons_self, (h2.inAll (Int.le_refl p)).mpr ?_⟩
        intro L hL
        obtain ⟨a, ha, rfl⟩ := List.mem_map.mp hL
        rw [h3 a ha]
        exact List.mem_cons_self
      · intro x hx
        rcases List.mem_cons.mp (inAll_cons.mp hx).1 with h | h
        · omega
        · have := hpl.1 x h; omega
      · intro x
        rw [inAll_cons, inAll_cons]
        have g2' := g2 x
        constructor
        · rintro ⟨a, b⟩
          have hpx := hpl.1 x a
          refine ⟨⟨List.mem_cons_of_mem _ a, (h2.inAll (by omega)).mpr (g2'.1.mp ⟨b, hpx⟩).1⟩, hpx⟩
        · rintro ⟨⟨a, b⟩, hpx⟩
          refine ⟨?_, (g2'.1.mpr ⟨(h2.inAll (by omega)).mp b, hpx⟩).1⟩
          rcases List.mem_cons.mp a with h | h
          · omega
          · exact h
    · rw [h1]
      have hs' := h2.increasing hs
      have hlen : o'.length = o.length := by
        clear h1 h3 hs' hs hstep
        induction o generalizing o' with
        | nil => cases o' with
          | nil => rfl
          | cons => exact absurd h2 (by simp [SkipsAll])
        | cons a o iho => cases o' with
          | nil => exact absurd h2 (by simp [SkipsAll])
          | cons b o' => simp [iho o' h2.2]
      have hiff : ∀ x, InAll (l :: o'.lists) x ↔ InAll ((p :: l) :: o.lists) x := by
        intro x
        rw [inAll_cons, inAll_cons]
        constructor
        · rintro ⟨a, b⟩
          exact ⟨List.mem_cons_of_mem _ a, h2.sub b⟩
        · rintro ⟨a, b⟩
          rcases List.mem_cons.mp a with h | h
          · subst h; exact absurd b h3
          · have := hpl.1 x h
            exact ⟨h, (h2.inAll (by omega)).mp b⟩
      rcases ih o' hpl.2 hs' with ⟨q, ls', g1, g2, g3, g4, g5, g6, g7⟩ | ⟨ls', g1, g2, g3, g4, g5⟩
      · left
        exact ⟨q, ls', g1, by omega, g3, (hiff q).mp g4, fun x hx => g5 x ((hiff x).mpr hx),
          fun x => (g6 x).trans (and_congr_left' (hiff x)), by
            simp only [List.length_cons]; omega⟩
      · right
        exact ⟨ls', g1, by omega, g3, fun x hx => g4 x ((hiff x).mpr hx), fun x hx => (hiff x).mp (g5 x hx)⟩
    · right
      rw [h1]
      obtain ⟨ls, e1, e2, e3, e4⟩ := suffixAll_lists h4 hs
      have hno : ∀ x, ¬ InAll ((p :: l) :: o.lists) x := by
        intro x hx
        rw [inAll_cons] at hx
        have h5 := h3 x (hx.2 L h2)
        rcases List.mem_cons.mp hx.1 with h | h
        · omega
        · have := hpl.1 x h; omega
      refine ⟨l :: ls, ?_, by simp [e2, Others.lists], ?_, hno, ?_⟩
      · simp only [e1]; simp [encAll]
      · intro l' hl'
        rcases List.mem_cons.mp hl' with rfl | h
        · exact hpl.2
        · exact e3 l' h
      · intro x hx
        rw [inAll_cons] at hx ⊢
        exact ⟨List.mem_cons_of_mem _ hx.1, e4 x hx.2⟩

theorem joinPrime_spec (ls : List (List Int)) :
    (∃ o : Others, o.lists = ls ∧ ∃ ps rest, joinPrime (encAll ls) = (.ok (some ps), rest) ∧ ps.zip rest = o.enc) ∨
    (∃ its, joinPrime (encAll ls) = (.ok none, its) ∧ [] ∈ ls ∧ SuffixAll its ls) := by
  induction ls with
  | nil => left; exact ⟨[], rfl, [], [], rfl, rfl⟩
  | cons l ls ih =>
    cases l with
    | nil =>
      right
      refine ⟨encAll ([] :: ls), ?_, by simp, ?_⟩
      · simp [encAll, joinPrime, PIter.call, iterateList]
      · refine ⟨⟨[], rfl, List.nil_suffix⟩, ?_⟩
        clear ih
        induction ls with
        | nil => trivial
        | cons l ls ih => exact ⟨⟨l, rfl, List.suffix_refl _⟩, ih⟩
    | cons p l =>
      rcases ih with ⟨o, rfl, ps, rest, h1, h2⟩ | ⟨its, h1, h2, h3⟩
      · left
        refine ⟨(p, l) :: o, rfl, p :: ps, iterateList l :: rest, ?_, ?_⟩
        · have h1' : joinPrime (List.map iterateList o.lists) = (Except.ok (some ps), rest) := h1
          simp [encAll, joinPrime, PIter.call, iterateList] at h1' ⊢
          rw [h1']
        · simp [h2, Others.enc]
      · right
        refine ⟨iterateList l :: its, ?_, List.mem_cons_of_mem _ h2, ⟨l, rfl, List.suffix_cons _ _⟩, h3⟩
        have h1' : joinPrime (List.map iterateList ls) = (Except.ok none, its) := h1
        simp [encAll, joinPrime, PIter.call, iterateList] at h1' ⊢
        rw [h1']

theorem joinCall_spec (ls : List (List Int)) (hne : ls ≠ []) (hs : ∀ l ∈ ls, Increasing l) :
    CallSpec ls (joinCall (encAll ls)) := by
  match ls, hne with
  | [l], _ =>
    cases l with
    | nil =>
      right
      exact ⟨[[]], rfl, rfl, hs, by simp [InAll], by simp [InAll]⟩
    | cons p l =>
      have hpl := List.pairwise_cons.mp (hs (p :: l) List.mem_cons_self)
      left
      refine ⟨p, [l], rfl, rfl, ?_, by simp [InAll], ?_, ?_, by simp⟩
      · intro l' hl'
        rw [List.mem_singleton.mp hl']
        exact hpl.2
      · intro x hx
        rcases List.mem_cons.mp (hx _ List.mem_cons_self) with h | h
        · omega
        · have := hpl.1 x h; omega
      · intro x
        have h1 : ∀ l' : List Int, InAll [l'] x ↔ x ∈ l' := by simp [InAll]
        rw [h1, h1, List.mem_cons]
        constructor
        · intro h
          exact ⟨Or.inr h, hpl.1 x h⟩
        · rintro ⟨h | h, h'⟩
          · omega
          · exact h
  | l :: l2 :: ls, _ =>
    have hcall : joinCall (encAll (l :: l2 :: ls)) = (match joinPrime (encAll (l2 :: ls)) with
      | (.error e, rest') => (.error e, iterateList l :: rest')
      | (.ok none, rest') => (.ok none, iterateList l :: rest')
      | (.ok (some ps), rest') => joinMain (iterateList l) (ps.zip rest')) := by
      rfl
    rw [hcall]
    have hl := hs l List.mem_cons_self
    have hs2 : ∀ l' ∈ l2 :: ls, Increasing l' := fun l' hl' => hs l' (List.mem_cons_of_mem _ hl')
    generalize hr : l2 :: ls = rest at hs2 ⊢
    rcases joinPrime_spec rest with ⟨o, ho, ps, r, h1, h2⟩ | ⟨its, h1, h2, h3⟩
    · rw [h1]
      simp only [h2]
      subst ho
      have hlen : o.lists.length = o.length := by simp [Others.lists]
      rcases joinMain_spec l o hl hs2 with ⟨q, ls', g1, g2, g3, g4, g5, g6, g7⟩ | ⟨ls', g1, g2, g3, g4, g5⟩
      · left
        exact ⟨q, ls', g1, by simp [g2, hlen], g3, g4, g5, g6, by simpa using g7⟩
      · right
        exact ⟨ls', g1, by simp [g2, hlen], g3, g4, g5⟩
    · rw [h1]
      right
      obtain ⟨ls', e1, e2, e3, e4⟩ := suffixAll_lists h3 hs2
      refine ⟨l :: ls', by simp [e1, encAll], by simp [e2], ?_, ?_, ?_⟩
      · intro l' hl'
        rcases List.mem_cons.mp hl' with rfl | h
        · exact hl
        · exact e3 l' h
      · intro x hx
        exact absurd ((inAll_cons.mp hx).2 [] h2) (by simp)
      · intro x hx
        rw [inAll_cons] at hx ⊢
        exact ⟨hx.1, e4 x hx.2⟩

theorem outcomes_join (ls : List (List Int)) (hne : ls ≠ []) (hs : ∀ l ∈ ls, Increasing l) (fuel : Nat)
    (hf : (ls.headD []).length < fuel) :
    ∃ out : List Int, outcomes joinCall fuel (encAll ls) = out.map .ok ∧ IsIntersection ls out := by
  induction fuel generalizing ls with
  | zero => omega
  | succ fuel ih =>
    rcases joinCall_spec ls hne hs with ⟨p, ls', h1, h2, h3, h4, h5, h6, h7⟩ | ⟨ls', h1, h2, h3, h4, h5⟩
    · have hne' : ls' ≠ [] := by
        intro h; subst h
        exact hne (List.length_eq_zero_iff.mp h2.symm)
      obtain ⟨out, g1, g2, g3⟩ := ih ls' hne' h3 (by omega)
      refine ⟨p :: out, by simp [outcomes, h1, g1], ?_, ?_⟩
      · refine List.pairwise_cons.mpr ⟨?_, g2⟩
        intro x hx
        exact ((h6 x).mp ((g3 x).mp hx)).2
      · intro x
        simp only [List.mem_cons]
        rw [g3 x, h6 x]
        constructor
        · rintro (rfl | h)
          · exact h4
          · exact h.1
        · intro h
          have := h5 x h
          by_cases hxp : x = p
          · exact Or.inl hxp
          · exact Or.inr ⟨h, by omega⟩
    · refine ⟨[], by simp [outcomes, h1], List.Pairwise.nil, ?_⟩
      intro x
      simp only [List.not_mem_nil, false_iff]
      exact h4 x

/-- The sorted intersection is unique. -/
theorem increasing_ext : ∀ {a b : List Int}, Increasing a → Increasing b → (∀ x, x ∈ a ↔ x ∈ b) → a = b := by
  intro a
  induction a with
  | nil =>
    intro b _ _ h
    cases b with
    | nil => rfl
    | cons y b => exact absurd ((h y).mpr List.mem_cons_self) (by simp)
  | cons x a ih =>
    intro b ha hb h
    cases b with
    | nil => exact absurd ((h x).mp List.mem_cons_self) (by simp)
    | cons y b =>
      have ha' := List.pairwise_cons.mp ha
      have hb' := List.pairwise_cons.mp hb
      have hxy : x = y := by
        have h1 := (h x).mp List.mem_cons_self
        have h2 := (h y).mpr List.mem_cons_self
        rcases List.mem_cons.mp h1 with h1 | h1
        · exact h1
        · rcases List.mem_cons.mp h2 with h2 | h2
          · exact h2.symm
          · have := ha'.1 y h2
            have := hb'.1 x h1
            omega
      subst hxy
      congr 1
      apply ih ha'.2 hb'.2
      intro z
      have hz := h z
      simp only [List.mem_cons] at hz
      constructor
      · intro hza
        rcases hz.mp (Or.inr hza) with h1 | h1
        · have := ha'.1 z hza; omega
        · exact h1
      · intro hzb
        rcases hz.mpr (Or.inr hzb) with h1 | h1
        · have := hb'.1 z hzb; omega
        · exact h1

/-! ### Errors -/

/-- Calling the iterators turned `its` into `its'`, using up the outcomes `cs`. -/
def Uses (its its' cs : List PIter) : Prop :=
  cs.length = its'.length ∧ its = List.zipWith (· ++ ·) cs its'

theorem Uses.refl (its : List PIter) : Uses its its (its.map (fun _ => [])) := by
  refine ⟨by simp, ?_⟩
  induction its with
  | nil => rfl
  | cons a its ih => simp [← ih]

theorem Uses.cons {its its' cs : List PIter} (h : Uses its its' cs) (c it' : PIter) :
    Uses ((c ++ it') :: its) (it' :: its') (c :: cs) :=
  ⟨by simp [h.1], by simp [← h.2]⟩

theorem flatten_nils (its : List PIter) : (its.map (fun _ => ([] : PIter))).flatten = [] := by
  induction its with
  | nil => rfl
  | cons a its ih => simp

theorem Uses.trans {a b c cs ds : List PIter} (h : Uses a b cs) (h' : Uses b c ds) :
    Uses a c (List.zipWith (· ++ ·) cs ds) ∧ ∀ o, o ∈ (List.zipWith (· ++ ·) cs ds).flatten ↔ o ∈ cs.flatten ∨ o ∈ ds.flatten := by
  obtain ⟨h1, rfl⟩ := h
  obtain ⟨h2, rfl⟩ := h'
  simp only [List.length_zipWith] at h1
  have h3 : cs.length = c.length := by omega
  clear h1
  induction c generalizing cs ds with
  | nil =>
    have : cs = [] := List.length_eq_zero_iff.mp h3
    have : ds = [] := List.length_eq_zero_iff.mp h2
    subst cs ds
    exact ⟨⟨rfl, rfl⟩, by simp⟩
  | cons x c ih =>
    cases cs with
    | nil => simp at h3
    | cons u cs =>
      cases ds with
      | nil => simp at h2
      | cons v ds =>
        obtain ⟨⟨g1, g2⟩, g3⟩ := ih (by simpa using h2) (by simpa using h3)
        refine ⟨⟨by simp at g1 ⊢; exact g1, ?_⟩, ?_⟩
        · simp [g2]
        · intro o
          simp only [List.zipWith_cons_cons, List.flatten_cons, List.mem_append, g3 o]
          grind

/-- The errors used up are exactly the error reported. -/
def Reports {α : Type} (r : Res α) (c : PIter) : Prop := ∀ e, .error e ∈ c ↔ r = .error e

theorem joinAdvance_reports (t cur : Int) (it : PIter) :
    ∃ c, it = c ++ (joinAdvance t cur it).2 ∧ Reports (joinAdvance t cur it).1 c := by
  induction it generalizing cur with
  | nil => refine ⟨[], ?_⟩; simp only [joinAdvance]; split <;> simp [Reports]
  | cons o it ih =>
    simp only [joinAdvance]
    split
    · cases o with
      | ok p =>
        obtain ⟨c, h1, h2⟩ := ih p
        refine ⟨.ok p :: c, by simp [← h1], ?_⟩
        intro e
        have := h2 e
        simpa using this
      | error e => exact ⟨[.error e], rfl, by intro e'; simp [eq_comm]⟩
    · exact ⟨[], rfl, by simp [Reports]⟩

def JoinCheck.res : JoinCheck → Res Unit
  | .failed e => .error e
  | _ => .ok ()

theorem joinCheck_reports (t : Int) (o : List (Int × PIter)) :
    ∃ cs, Uses (o.map (·.2)) ((joinCheck t o).2.map (·.2)) cs ∧ Reports (joinCheck t o).1.res cs.flatten ∧
      (joinCheck t o).2.length = o.length := by
  induction o with
  | nil => exact ⟨[], ⟨rfl, rfl⟩, by simp [Reports, joinCheck, JoinCheck.res], rfl⟩
  | cons a o ih =>
    obtain ⟨cur, it⟩ := a
    obtain ⟨c, h1, h2⟩ := joinAdvance_reports t cur it
    obtain ⟨cs, g1, g2, g3⟩ := ih
    simp only [joinCheck]
    generalize hr : joinAdvance t cur it = r at h1 h2
    obtain ⟨r, it'⟩ := r
    simp only at h1 h2
    subst h1
    have hstop : Uses ((c ++ it') :: o.map (·.2)) (it' :: o.map (·.2)) (c :: (o.map (·.2)).map (fun _ => [])) :=
      (Uses.refl _).cons c it'
    cases r with
    | error e =>
      refine ⟨_, hstop, ?_, by simp⟩
      intro e'
      rw [List.flatten_cons, flatten_nils, List.append_nil, h2 e']
      simp [JoinCheck.res]
    | ok r =>
      cases r with
      | none =>
        refine ⟨_, hstop, ?_, by simp⟩
        intro e'
        rw [List.flatten_cons, flatten_nils, List.append_nil, h2 e']
        simp [JoinCheck.res]
      | some cur' =>
        simp only
        split
        · refine ⟨_, hstop, ?_, by simp⟩
          intro e'
          rw [List.flatten_cons, flatten_nils, List.append_nil, h2 e']
          simp [JoinCheck.res]
        · refine ⟨_, g1.cons c it', ?_, by simp [g3]⟩
          intro e'
          have h4 : (.error e' : Res Int) ∉ c := by
            rw [h2 e']; simp
          simp only [List.flatten_cons, List.mem_append, h4, false_or]
          exact g2 e'

theorem joinMain_reports (it : PIter) (o : List (Int × PIter)) :
    ∃ cs, Uses (it :: o.map (·.2)) (joinMain it o).2 cs ∧ Reports (joinMain it o).1 cs.flatten := by
  induction it generalizing o with
  | nil =>
    refine ⟨_, Uses.refl _, ?_⟩
    intro e
    rw [flatten_nils]; simp [joinMain]
  | cons r it ih =>
    cases r with
    | error e =>
      refine ⟨_, (Uses.refl _).cons [.error e] it, ?_⟩
      intro e'
      rw [List.flatten_cons, flatten_nils]
      simp [joinMain, eq_comm]
    | ok p =>
      obtain ⟨cs, g1, g2, g3⟩ := joinCheck_reports p o
      have g4 := g1.cons [.ok p] it
      simp only [joinMain]
      generalize hr : joinCheck p o = r at g1 g2 g3 g4
      obtain ⟨r, o'⟩ := r
      cases r with
      | failed e =>
        refine ⟨_, g4, ?_⟩
        intro e'
        have := g2 e'
        simpa [JoinCheck.res] using this
      | found =>
        refine ⟨_, g4, ?_⟩
        intro e'
        have := g2 e'
        simpa [JoinCheck.res] using this
      | ended =>
        refine ⟨_, g4, ?_⟩
        intro e'
        have := g2 e'
        simpa [JoinCheck.res] using this
      | notFound =>
        obtain ⟨ds, k1, k2⟩ := ih o'
        obtain ⟨k3, k4⟩ := g4.trans k1
        refine ⟨_, k3, ?_⟩
        intro e'
        rw [k4]
        have h5 := g2 e'
        have h6 := k2 e'
        simp only [JoinCheck.res, reduceCtorEq, iff_false] at h5
        simp [h5, h6]

theorem joinPrime_reports (its : List PIter) :
    ∃ cs, Uses its (joinPrime its).2 cs ∧ Reports (joinPrime its).1 cs.flatten ∧
      ∀ ps, (joinPrime its).1 = .ok (some ps) → ps.length = (joinPrime its).2.length := by
  induction its with
  | nil => exact ⟨[], ⟨rfl, rfl⟩, by simp [Reports, joinPrime], by simp [joinPrime]⟩
  | cons it its ih =>
    cases it with
    | nil =>
      refine ⟨_, (Uses.refl its).cons [] [], ?_, by simp [joinPrime, PIter.call]⟩
      intro e
      rw [List.flatten_cons, flatten_nils]; simp [joinPrime, PIter.call]
    | cons r it =>
      cases r with
      | error e =>
        refine ⟨_, (Uses.refl its).cons [.error e] it, ?_, by simp [joinPrime, PIter.call]⟩
        intro e'
        rw [List.flatten_cons, flatten_nils]; simp [joinPrime, PIter.call, eq_comm]
      | ok p =>
        obtain ⟨cs, h1, h2, h3⟩ := ih
        simp only [joinPrime, PIter.call]
        generalize hr : joinPrime its = r at h1 h2 h3
        obtain ⟨r, its'⟩ := r
        have h4 := h1.cons [.ok p] it
        rcases r with e | _ | ps
        · refine ⟨_, h4, ?_, by simp⟩
          intro e'
          have := h2 e'
          simpa using this
        · refine ⟨_, h4, ?_, by simp⟩
          intro e'
          have := h2 e'
          simpa using this
        · refine ⟨_, h4, ?_, ?_⟩
          · intro e'
            have := h2 e'
            simpa using this
          · intro ps' h
            simp only [Except.ok.injEq, Option.some.injEq] at h
            subst h
            simp [h3 ps rfl]

theorem joinCall_reports (its : List PIter) :
    ∃ cs, Uses its (joinCall its).2 cs ∧ Reports (joinCall its).1 cs.flatten := by
  match its with
  | [] => exact ⟨[], ⟨rfl, rfl⟩, by simp [Reports, joinCall]⟩
  | [it] =>
    cases it with
    | nil => exact ⟨[[]], ⟨rfl, rfl⟩, by simp [Reports, joinCall, PIter.call]⟩
    | cons r it =>
      cases r with
      | ok p => exact ⟨[[.ok p]], ⟨rfl, rfl⟩, by simp [Reports, joinCall, PIter.call]⟩
      | error e => exact ⟨[[.error e]], ⟨rfl, rfl⟩, by intro e'; simp [joinCall, PIter.call, eq_comm]⟩
  | it :: it2 :: its =>
    obtain ⟨cs, h1, h2, h3⟩ := joinPrime_reports (it2 :: its)
    have h4 := h1.cons [] it
    simp only [joinCall]
    generalize hr : joinPrime (it2 :: its) = r at h1 h2 h3 h4
    obtain ⟨r, its'⟩ := r
    rcases r with e | _ | ps
    · refine ⟨_, h4, ?_⟩
      intro e'
      have := h2 e'
      simpa using this
    · refine ⟨_, h4, ?_⟩
      intro e'
      have := h2 e'
      simpa using this
    · have h5 : (ps.zip its').map (·.2) = its' := by
        have h6 := h3 ps rfl
        simp only at h6
        exact List.map_snd_zip (by omega)
      obtain ⟨ds, k1, k2⟩ := joinMain_reports it (ps.zip its')
      rw [h5] at k1
      obtain ⟨k3, k4⟩ := h4.trans k1
      refine ⟨_, k3, ?_⟩
      intro e'
      rw [k4]
      have h6 := h2 e'
      have h7 := k2 e'
      simp only [reduceCtorEq, iff_false] at h6
      simp [h6, h7]

theorem joinIters_sorted (ls : List (List Int)) (hne : ls ≠ []) (hs : ∀ l ∈ ls, Increasing l) :
    ∃ out : List Int, joinIters (ls.map iterateList) = out.map .ok ∧ IsIntersection ls out := by
  have h := outcomes_join ls hne hs ((ls.headD []).length + 1) (by omega)
  have hlen : ((ls.map iterateList).headD []).length = (ls.headD []).length := by
    cases ls with
    | nil => rfl
    | cons l ls => simp [iterateList]
  simpa only [joinIters, hlen, encAll] using h

end Rodb
