import Verif.Proofs.WildcardCrash
/-
  Reading an index file that was cut short: every answer is right until an error is reported.
-/
namespace Rodb
open Spec Forest

/-- On `s'` the program answers as on `s` or reports an error. -/
def Sim (s' s : Stream) {α : Type} (m : M α) : Prop := (m s').1 = (m s).1 ∨ ∃ e, (m s').1 = .error (.err e)

section
variable {s' s : Stream} {α β : Type}

theorem Sim.pure (a : α) : Sim s' s (Pure.pure a : M α) := Or.inl rfl
theorem Sim.fail (e : Fail) : Sim s' s (M.fail e : M α) := Or.inl rfl
theorem Sim.fuel : Sim s' s mFuel := Or.inl rfl
theorem Sim.ite {p : Prop} [Decidable p] {m m' : M α} (h : Sim s' s m) (h' : Sim s' s m') :
    Sim s' s (if p then m else m') := by split <;> assumption

theorem Sim.bind {m : M α} {f : α → M β} (hr : ReadOnly m) (hm : Sim s' s m) (hf : ∀ a, Sim s' s (f a)) :
    Sim s' s (m >>= f) := by
  unfold Sim at *
  rw [M.bind_def, M.bind_def]
  have h1 := hr s'
  have h2 := hr s
  revert hm h1 h2
  cases m s' with
  | mk r' t' =>
    cases m s with
    | mk r t =>
      simp only
      intro hm h1 h2
      subst h1 h2
      rcases hm with h | ⟨e, h⟩
      · subst h
        cases r' with
        | ok a => exact hf a
        | error e => exact Or.inl rfl
      · subst h
        exact Or.inr ⟨e, rfl⟩

variable (hi' : s'.Inv) (hi : s.Inv) (hp : s'.content <+: s.content)
include hi' hi hp

theorem Sim.get (o n : Nat) : Sim s' s (mGet o n) := by
  by_cases h : o + n ≤ s'.content.length
  · left
    have hl := hp.length_le
    show s'.get o n = s.get o n
    rw [Stream.get_spec hi' o n h, Stream.get_spec hi o n (by omega)]
    obtain ⟨r, hr⟩ := hp
    rw [← hr]
    unfold slice
    rw [List.drop_append_of_le_length (by omega), List.take_append_of_le_length (by simp; omega)]
  · right
    exact Stream.get_err hi' o n h

theorem Sim.getPos (o : Nat) : Sim s' s (getPos o) := by
  unfold Rodb.getPos
  exact Sim.ite (Sim.pure _) (Sim.bind (ReadOnly.get _ _) (Sim.get hi' hi hp _ _) fun _ => Sim.pure _)
theorem Sim.getTreeNode (o : Nat) : Sim s' s (getTreeNode o) := by
  unfold Rodb.getTreeNode
  exact Sim.ite (Sim.pure _) (Sim.bind (ReadOnly.get _ _) (Sim.get hi' hi hp _ _) fun _ => Sim.pure _)
theorem Sim.findChildLoop (v : Bytes) (fuel : Nat) (o : Option TreeNode) : Sim s' s (findChildLoop v fuel o) := by
  induction fuel generalizing o with
  | zero => exact Sim.fail _
  | succ fuel ih =>
    cases o with
    | none => exact Sim.pure _
    | some ch =>
      refine Sim.bind (ReadOnly.get _ _) (Sim.get hi' hi hp _ _) fun _ => ?_
      exact Sim.ite (Sim.pure _) (Sim.bind (ReadOnly.getTreeNode _) (Sim.getTreeNode hi' hi hp _) fun _ => ih _)
theorem Sim.getSequenceLoop (fuel : Nat) (n : TreeNode) (r : Bytes) : Sim s' s (getSequenceLoop fuel n r) := by
  induction fuel generalizing n r with
  | zero => exact Sim.fail _
  | succ fuel ih =>
    refine Sim.ite (Sim.pure _) (Sim.bind ?_ ?_ fun x => ?_)
    · exact ReadOnly.bind (ReadOnly.getTreeNode _) fun _ => ReadOnly.bind ReadOnly.fuel fun _ => ReadOnly.findChildLoop _ _ _
    · exact Sim.bind (ReadOnly.getTreeNode _) (Sim.getTreeNode hi' hi hp _) fun _ =>
        Sim.bind ReadOnly.fuel Sim.fuel fun _ => Sim.findChildLoop hi' hi hp _ _ _
    cases x with
    | none => exact Sim.pure _
    | some x =>
      simp only
      split
      · exact Sim.pure _
      · exact ih _ _
theorem Sim.getSequence (n : TreeNode) (r : Bytes) : Sim s' s (n.getSequence r) := by
  refine Sim.bind (ReadOnly.getSequenceLoop _ _ _) (Sim.getSequenceLoop hi' hi hp _ _ _) fun o => ?_
  cases o with
  | none => exact Sim.pure _
  | some n => exact Sim.getPos hi' hi hp _
theorem Sim.iterateStep (o : Option PosNode) : Sim s' s (iterateStep o) := by
  cases o with
  | none => exact Sim.pure _
  | some n => exact Sim.bind (ReadOnly.getPos _) (Sim.getPos hi' hi hp _) fun _ => Sim.pure _

end

/-! ### Iterators cut short -/

/-- `it'` gives the outcomes of `it` up to a point where it reports an error instead, if any. -/
inductive Cut : PIter → PIter → Prop where
  | nil : Cut [] []
  | err (e : String) (it : PIter) : Cut [.error (.err e)] it
  | cons (o : Res Int) {it' it : PIter} (h : Cut it' it) : Cut (o :: it') (o :: it)

theorem Cut.refl (it : PIter) : Cut it it := by
  induction it with
  | nil => exact .nil
  | cons o it ih => exact .cons o ih

theorem Cut.spec {it' it : PIter} (h : Cut it' it) :
    it' = it ∨ ∃ n e, it' = it.take n ++ [.error (.err e)] := by
  induction h with
  | nil => exact Or.inl rfl
  | err e it => exact Or.inr ⟨0, e, by simp⟩
  | cons o h ih =>
    rcases ih with h | ⟨n, e, h⟩
    · exact Or.inl (by rw [h])
    · exact Or.inr ⟨n + 1, e, by simp [h]⟩

inductive CutAll : List PIter → List PIter → Prop where
  | nil : CutAll [] []
  | cons {a b l m} (h : Cut a b) (t : CutAll l m) : CutAll (a :: l) (b :: m)

inductive CutOthers : List (Int × PIter) → List (Int × PIter) → Prop where
  | nil : CutOthers [] []
  | cons (x : Int) {a b l m} (h : Cut a b) (t : CutOthers l m) : CutOthers ((x, a) :: l) ((x, b) :: m)

theorem CutOthers.snd {l m} (h : CutOthers l m) : CutAll (l.map (·.2)) (m.map (·.2)) := by
  induction h with
  | nil => exact .nil
  | cons x h t ih => exact .cons h ih

theorem CutOthers.zip {l m} (h : CutAll l m) : ∀ ps : List Int, CutOthers (ps.zip l) (ps.zip m) := by
  induction h with
  | nil => intro ps; simp; exact .nil
  | cons h t ih =>
    intro ps
    cases ps with
    | nil => simp; exact .nil
    | cons p ps => exact .cons p h (ih ps)

/-- The two computations agree, or the first one reports an error. -/
def SimR {ρ σ : Type} (R : σ → σ → Prop) (x' x : Res ρ × σ) : Prop :=
  (∃ e, x'.1 = .error (.err e)) ∨ (x'.1 = x.1 ∧ R x'.2 x.2)

theorem Cut.call {it' it : PIter} (h : Cut it' it) : SimR Cut it'.call it.call := by
  cases h with
  | nil => exact Or.inr ⟨rfl, .nil⟩
  | err e it => exact Or.inl ⟨e, rfl⟩
  | cons o h =>
    cases o with
    | ok p => exact Or.inr ⟨rfl, h⟩
    | error e => exact Or.inr ⟨rfl, h⟩

theorem CutAll.prime {l m} (h : CutAll l m) : SimR CutAll (joinPrime l) (joinPrime m) := by
  induction h with
  | nil => exact Or.inr ⟨rfl, .nil⟩
  | @cons a b l m h t ih =>
    simp only [joinPrime]
    have hc := h.call
    unfold SimR at *
    revert hc ih
    generalize a.call = ca
    generalize b.call = cb
    generalize joinPrime l = jl
    generalize joinPrime m = jm
    obtain ⟨ra, ia⟩ := ca
    obtain ⟨rb, ib⟩ := cb
    obtain ⟨rl, il⟩ := jl
    obtain ⟨rm, im⟩ := jm
    simp only
    rintro ih hc
    rcases hc with ⟨e, rfl⟩ | ⟨rfl, hc⟩
    · exact Or.inl ⟨e, rfl⟩
    · rcases ra with e | _ | p
      · exact Or.inr ⟨rfl, .cons hc t⟩
      · exact Or.inr ⟨rfl, .cons hc t⟩
      · rcases ih with ⟨e, rfl⟩ | ⟨rfl, ih⟩
        · exact Or.inl ⟨e, rfl⟩
        · rcases rl with e | _ | ps
          · exact Or.inr ⟨rfl, .cons hc ih⟩
          · exact Or.inr ⟨rfl, .cons hc ih⟩
          · exact Or.inr ⟨rfl, .cons hc ih⟩

theorem Cut.advance {it' it : PIter} (h : Cut it' it) (target : Int) : ∀ cur,
    SimR Cut (joinAdvance target cur it') (joinAdvance target cur it) := by
  induction h with
  | nil =>
    intro cur
    simp only [joinAdvance]
    split <;> exact Or.inr ⟨rfl, .nil⟩
  | err e it =>
    intro cur
    by_cases hc : cur < target
    · left
      exact ⟨e, by simp [joinAdvance, hc]⟩
    · right
      cases it with
      | nil => simp [joinAdvance, hc]; exact .err e []
      | cons o it => simp [joinAdvance, hc]; exact .err e _
  | cons o h ih =>
    intro cur
    simp only [joinAdvance]
    split
    · cases o with
      | ok p => exact ih p
      | error e => exact Or.inr ⟨rfl, h⟩
    · exact Or.inr ⟨rfl, .cons o h⟩

/-- Like `SimR` for the inner loop. -/
def SimC (R : List (Int × PIter) → List (Int × PIter) → Prop) (x' x : JoinCheck × List (Int × PIter)) : Prop :=
  (∃ e, x'.1 = .failed (.err e)) ∨ (x'.1 = x.1 ∧ R x'.2 x.2)

theorem CutOthers.check {l m} (h : CutOthers l m) (target : Int) :
    SimC CutOthers (joinCheck target l) (joinCheck target m) := by
  induction h with
  | nil => exact Or.inr ⟨rfl, .nil⟩
  | @cons x a b l m h t ih =>
    simp only [joinCheck]
    have ha := h.advance target x
    unfold SimC SimR at *
    revert ha ih
    generalize joinAdvance target x a = ca
    generalize joinAdvance target x b = cb
    generalize joinCheck target l = jl
    generalize joinCheck target m = jm
    obtain ⟨ra, ia⟩ := ca
    obtain ⟨rb, ib⟩ := cb
    obtain ⟨rl, il⟩ := jl
    obtain ⟨rm, im⟩ := jm
    simp only
    intro ih ha
    rcases ha with ⟨e, rfl⟩ | ⟨rfl, ha⟩
    · exact Or.inl ⟨e, rfl⟩
    · rcases ra with e | _ | p
      · exact Or.inr ⟨rfl, .cons _ ha t⟩
      · exact Or.inr ⟨rfl, .cons _ ha t⟩
      · simp only
        split
        · exact Or.inr ⟨rfl, .cons _ ha t⟩
        · rcases ih with ⟨e, rfl⟩ | ⟨rfl, ih⟩
          · exact Or.inl ⟨e, rfl⟩
          · exact Or.inr ⟨rfl, .cons _ ha ih⟩

theorem Cut.main {it' it : PIter} (h : Cut it' it) : ∀ {l m}, CutOthers l m →
    SimR CutAll (joinMain it' l) (joinMain it m) := by
  induction h with
  | nil => intro l m ho; exact Or.inr ⟨rfl, .cons .nil ho.snd⟩
  | err e it => intro l m ho; exact Or.inl ⟨e, rfl⟩
  | cons o h ih =>
    intro l m ho
    cases o with
    | error e => exact Or.inr ⟨rfl, .cons h ho.snd⟩
    | ok p =>
      simp only [joinMain]
      have hc := ho.check p
      unfold SimC at hc
      revert hc
      generalize joinCheck p l = jl
      generalize joinCheck p m = jm
      obtain ⟨rl, il⟩ := jl
      obtain ⟨rm, im⟩ := jm
      simp only
      rintro (⟨e, rfl⟩ | ⟨rfl, hc⟩)
      · exact Or.inl ⟨e, rfl⟩
      · cases rl with
        | found => exact Or.inr ⟨rfl, .cons h hc.snd⟩
        | ended => exact Or.inr ⟨rfl, .cons h hc.snd⟩
        | failed e => exact Or.inr ⟨rfl, .cons h hc.snd⟩
        | notFound => exact ih hc

theorem CutAll.joinCall {l m} (h : CutAll l m) : SimR CutAll (joinCall l) (joinCall m) := by
  cases h with
  | nil => exact Or.inr ⟨rfl, .nil⟩
  | @cons a b l m h t =>
    cases t with
    | nil =>
      simp only [Rodb.joinCall]
      have hc := h.call
      unfold SimR at *
      rcases hc with ⟨e, hc⟩ | ⟨h1, h2⟩
      · exact Or.inl ⟨e, hc⟩
      · exact Or.inr ⟨h1, .cons h2 .nil⟩
    | @cons c d l m h2 t =>
      simp only [Rodb.joinCall]
      have hp := (CutAll.cons h2 t).prime
      unfold SimR at hp
      revert hp
      generalize joinPrime (c :: l) = jl
      generalize joinPrime (d :: m) = jm
      obtain ⟨rl, il⟩ := jl
      obtain ⟨rm, im⟩ := jm
      simp only
      rintro (⟨e, rfl⟩ | ⟨rfl, hc⟩)
      · exact Or.inl ⟨e, rfl⟩
      · rcases rl with e | _ | ps
        · exact Or.inr ⟨rfl, .cons h hc⟩
        · exact Or.inr ⟨rfl, .cons h hc⟩
        · exact h.main (CutOthers.zip hc ps)

theorem CutAll.outcomes {l m} (h : CutAll l m) (fuel : Nat) :
    Cut (outcomes Rodb.joinCall fuel l) (outcomes Rodb.joinCall fuel m) := by
  induction fuel generalizing l m with
  | zero => exact Cut.refl _
  | succ fuel ih =>
    simp only [Rodb.outcomes]
    have hc := h.joinCall
    unfold SimR at hc
    revert hc
    generalize Rodb.joinCall l = jl
    generalize Rodb.joinCall m = jm
    obtain ⟨rl, il⟩ := jl
    obtain ⟨rm, im⟩ := jm
    simp only
    rintro (⟨e, rfl⟩ | ⟨rfl, hc⟩)
    · exact Cut.err e _
    · rcases rl with e | _ | p
      · exact Cut.refl _
      · exact .nil
      · exact .cons _ (ih hc)

/-- A successful call of the joined iterator uses up a position of the first one. -/
theorem joinCall_head {its : List PIter} {p : Int} (hp : (joinCall its).1 = .ok (some p)) :
    ((joinCall its).2.headD []).length < (its.headD []).length := by
  match its with
  | [] => simp [joinCall] at hp
  | [it] => cases it with
    | nil => simp [joinCall, PIter.call] at hp
    | cons r it => cases r with
      | ok q => simp [joinCall, PIter.call]
      | error e => simp [joinCall, PIter.call] at hp
  | it :: it2 :: its =>
    simp only [joinCall] at hp ⊢
    generalize joinPrime (it2 :: its) = r at hp ⊢
    obtain ⟨r, its'⟩ := r
    rcases r with e | _ | ps
    · simp at hp
    · simp at hp
    · simp only [List.headD_cons] at hp ⊢
      generalize ps.zip its' = o at hp ⊢
      induction it generalizing o with
      | nil => simp [joinMain] at hp
      | cons r it iht => cases r with
        | error e => simp [joinMain] at hp
        | ok q =>
          simp only [joinMain] at hp ⊢
          generalize joinCheck q o = r at hp ⊢
          obtain ⟨r, o'⟩ := r
          cases r with
          | found => simp
          | ended => simp at hp
          | failed e => simp at hp
          | notFound =>
            simp only at hp ⊢
            have := iht o' hp
            simp only [List.length_cons]; omega

theorem outcomes_fuel : ∀ (fuel fuel' : Nat) (its : List PIter), (its.headD []).length < fuel →
    (its.headD []).length < fuel' → outcomes joinCall fuel its = outcomes joinCall fuel' its := by
  intro fuel
  induction fuel with
  | zero => intro fuel' its h; omega
  | succ fuel ih =>
    intro fuel' its h h'
    cases fuel' with
    | zero => omega
    | succ fuel' =>
      simp only [outcomes]
      have hh := fun p => joinCall_head (its := its) (p := p)
      revert hh
      generalize joinCall its = j
      obtain ⟨r, its'⟩ := j
      intro hh
      rcases r with e | _ | p
      · rfl
      · rfl
      · have := hh p rfl
        simp only at this ⊢
        rw [ih fuel' its' (by omega) (by omega)]

theorem CutAll.join {l m} (h : CutAll l m) : Cut (joinIters l) (joinIters m) := by
  unfold joinIters
  rw [outcomes_fuel _ ((l.headD []).length + 1 + (m.headD []).length) l (by omega) (by omega),
    outcomes_fuel ((m.headD []).length + 1) ((l.headD []).length + 1 + (m.headD []).length) m (by omega) (by omega)]
  exact h.outcomes _

/-! ### Queries on the cut file -/

theorem Cut.iterate {s' s : Stream} (hi' : s'.Inv) (hi : s.Inv) (hp : s'.content <+: s.content) :
    ∀ (fuel : Nat) (cur : Option PosNode), Cut (iteratePositions fuel cur s') (iteratePositions fuel cur s) := by
  intro fuel
  induction fuel with
  | zero => intro cur; exact Cut.refl _
  | succ fuel ih =>
    intro cur
    simp only [iteratePositions]
    have h := Sim.iterateStep hi' hi hp cur
    unfold Sim at h
    rcases h with h | ⟨e, h⟩
    · rw [h]
      rcases (iterateStep cur s).1 with e | ⟨_ | p, next⟩
      · exact Cut.refl _
      · exact .nil
      · exact .cons _ (ih next)
    · rw [h]
      exact .err e _

/-- Answers to a query: `r'` is `r`, or an error, or `r` cut short by an error. -/
def CutRes (r' r : Res PIter) : Prop :=
  r' = r ∨ (∃ e, r' = .error (.err e)) ∨ ∃ it' it, r' = .ok it' ∧ r = .ok it ∧ Cut it' it

theorem cut_filters {lower} {w' w : Wildcard} (hi' : w'.stream.Inv) (hi : w.stream.Inv)
    (hp : w'.stream.content <+: w.stream.content) (hc : w'.config = w.config) (hx : w'.index = w.index)
    (filters : GoMap Value) :
    (∃ e, wildcardFilters lower w' filters = .error (.err e)) ∨
    (wildcardFilters lower w' filters = wildcardFilters lower w filters) ∨
    ∃ its' its, wildcardFilters lower w' filters = .ok (some its') ∧ wildcardFilters lower w filters = .ok (some its) ∧
      CutAll its' its := by
  induction filters with
  | nil => exact Or.inr (Or.inl rfl)
  | cons pf rest ih =>
    obtain ⟨p, f⟩ := pf
    simp only [wildcardFilters]
    rw [hc, hx]
    split
    · exact Or.inr (Or.inl rfl)
    · cases mapGet w.index p with
      | none => exact Or.inr (Or.inl rfl)
      | some root =>
        cases f with
        | str q =>
          cases root with
          | none => exact Or.inr (Or.inl rfl)
          | some root =>
            simp only
            have hs := Sim.getSequence hi' hi hp root (w.config.normalize lower q)
            unfold Sim at hs
            rcases hs with hs | ⟨e, hs⟩
            · rw [hs]
              rcases (root.getSequence (w.config.normalize lower q) w.stream).1 with e | _ | ps
              · exact Or.inr (Or.inl rfl)
              · exact Or.inr (Or.inl rfl)
              · simp only
                have hit := Cut.iterate hi' hi hp maxFuel (some ps)
                rcases ih with ⟨e, ih⟩ | ih | ⟨its', its, ih', ih, hcut⟩
                · rw [ih]; exact Or.inl ⟨e, rfl⟩
                · rw [ih]
                  rcases wildcardFilters lower w rest with e | _ | its
                  · exact Or.inr (Or.inl rfl)
                  · exact Or.inr (Or.inl rfl)
                  · refine Or.inr (Or.inr ⟨_, _, rfl, rfl, .cons hit ?_⟩)
                    clear ih
                    induction its with
                    | nil => exact .nil
                    | cons i its ih => exact .cons (Cut.refl _) ih
                · rw [ih', ih]
                  exact Or.inr (Or.inr ⟨_, _, rfl, rfl, .cons hit hcut⟩)
            · rw [hs]; exact Or.inl ⟨e, rfl⟩
        | _ => exact Or.inr (Or.inl rfl)

theorem cut_query {lower} {w' w : Wildcard} (hi' : w'.stream.Inv) (hi : w.stream.Inv)
    (hp : w'.stream.content <+: w.stream.content) (hc : w'.config = w.config) (hx : w'.index = w.index)
    (hn : w'.inputName = w.inputName) (inputName : String) (filters : GoMap Value) :
    CutRes (w'.getRecordPositions lower inputName filters) (w.getRecordPositions lower inputName filters) := by
  unfold Wildcard.getRecordPositions
  rw [hn]
  split
  · exact Or.inl rfl
  · split
    · exact Or.inl rfl
    · rcases cut_filters (lower := lower) hi' hi hp hc hx filters with ⟨e, h⟩ | h | ⟨its', its, h', h, hcut⟩
      · rw [h]; exact Or.inr (Or.inl ⟨e, rfl⟩)
      · rw [h]; exact Or.inl rfl
      · rw [h', h]; exact Or.inr (Or.inr ⟨_, _, rfl, rfl, hcut.join⟩)

/-! ### Loading the cut file -/

theorem cut_loadRoots {T c own} {m : Metadata} {all : RootsOf}
    (htr : Trees c own T all) (hm : m.roots = all.map (·.2.1.offset)) {s' : Stream} (hi' : s'.Inv) (hp : s'.content <+: c)
    (hsm : c.length < maxSize) :
    ∀ {rest done : RootsOf}, all = done ++ rest → (all.map (·.1)).Nodup →
      loadRoots m (rest.map (·.1)) done.length (indexOf done) s' = (.ok (indexOf all), s') ∨
      ∃ e, loadRoots m (rest.map (·.1)) done.length (indexOf done) s' = (.error (.err e), s') := by
  intro rest
  induction rest with
  | nil => intro done h _; simp only [List.append_nil] at h; subst h; exact Or.inl rfl
  | cons x rest ih =>
    intro done h hnd
    obtain ⟨p, r, f⟩ := x
    have hx : (p, r, f) ∈ all := by rw [h]; simp
    have hcell := (htr.rep _ hx).cell
    simp only at hcell
    have hget : m.roots[done.length]? = some r.offset := by
      rw [hm, h]
      simp
    have hle := hcell.le
    have hnode : m.getRootNode done.length s' = (.ok (some r), s') ∨ ∃ e, m.getRootNode done.length s' = (.error (.err e), s') := by
      unfold Metadata.getRootNode
      rw [hget]
      simp only
      simp only [maxSize] at hsm
      rw [if_neg (by simp only [treeNodeSize]; omega)]
      have hic : (Stream.new c c.length 0).Inv := Stream.new_inv _ _
      have hcc : (Stream.new c c.length 0).content = c := by show c ++ [] = c; simp
      obtain ⟨a, h1, h2⟩ := (WP.getTreeNode (Q := fun a _ => a = some r) (hcc.symm ▸ hcell) rfl).run (ReadOnly.getTreeNode _) hic
        (by rw [hcc]; exact hsm)
      have hs := Sim.getTreeNode hi' hic (hcc.symm ▸ hp) r.offset
      unfold Sim at hs
      have hro := ReadOnly.getTreeNode r.offset s'
      rw [h1, h2] at hs
      rcases hs with hs | ⟨e, hs⟩
      · exact Or.inl (Prod.ext hs hro)
      · exact Or.inr ⟨e, Prod.ext hs hro⟩
    have hpn : p ∉ done.map (·.1) := by
      rw [h, List.map_append, List.nodup_append] at hnd
      intro hp
      exact hnd.2.2 p hp p (by simp) rfl
    rcases hnode with hnode | ⟨e, hnode⟩
    · simp only [List.map_cons, loadRoots, M.bind_def, hnode]
      rw [mapSet_indexOf_new r f hpn]
      have hlen : done.length + 1 = (done ++ [(p, r, f)]).length := by simp
      rw [hlen]
      exact ih (by rw [h]; simp) hnd
    · right
      exact ⟨e, by simp only [List.map_cons, loadRoots, M.bind_def, hnode]⟩

theorem readOffsets_short : ∀ (n : Nat) (data : Bytes), data.length < 8 * n → readOffsets n data = .error (.err "EOF") := by
  intro n
  induction n with
  | zero => intro data h; omega
  | succ n ih =>
    intro data h
    simp only [readOffsets]
    by_cases h8 : data.length < 8
    · rw [readBytes_err h8]; rfl
    · rw [readBytes_ok (by omega)]
      simp only [bind, Except.bind]
      rw [ih _ (by rw [List.length_drop]; omega)]

/-- Loading a prefix of a finished file: refused, or the same index. -/
theorem cut_load {cfg : WildcardConfig} {size t : Int} {T : String → Trie} {index : WIndex} {s : Stream}
    (hf : Finished cfg size t T index s) (hnd : cfg.properties.Nodup)
    (h1 : Int64Range size) (h2 : Int64Range t) (hcount : (cfg.properties.length : Int) ≤ maxSliceLen)
    {input : Input} {f : Bytes} (hp : f <+: s.content) :
    (∃ e, (loadIndex cfg input (Stream.new f f.length cfg.bufferSize)).1 = .error e) ∨
    loadIndex cfg input (Stream.new f f.length cfg.bufferSize) = (.ok index, Stream.new f f.length cfg.bufferSize) := by
  obtain ⟨own, roots, hm, htr, hk, rfl⟩ := hf.data
  have hlen : roots.length = cfg.properties.length := by rw [← hk]; simp
  have hload : loadMetadata (Stream.new f f.length cfg.bufferSize) =
      (Metadata.unserialize f, Stream.new f f.length cfg.bufferSize) := rfl
  simp only [loadIndex, M.bind_def, hload]
  have hfits : (buildMeta cfg size t (roots.map (·.2.1.offset)) true).Fits :=
    buildMeta_fits h1 h2 (by rw [List.length_map, hlen]; exact hcount) (roots_fit htr hf.small)
  have hmb := buildMeta_length cfg size t (roots.map (·.2.1.offset)) true
  rw [List.length_map] at hmb
  have hun : Metadata.unserialize s.content = .ok (buildMeta cfg size t (roots.map (·.2.1.offset)) true) := by
    have heq := hm.eq
    generalize hmb2 : (buildMeta cfg size t (roots.map (·.2.1.offset)) true).serialize = mb at *
    have hsplit : s.content = mb ++ s.content.drop mb.length := by
      rw [← List.take_append_drop mb.length s.content]
      have : List.take mb.length s.content = mb := by simpa [slice] using heq
      rw [this]
      simp
    rw [hsplit, ← hmb2]
    exact Metadata.unserialize_serialize _ hfits _
  have hsl : f.length ≤ s.content.length := hp.length_le
  have hcl : 47 + 8 * roots.length ≤ s.content.length := by rw [← hmb]; exact hm.le
  by_cases h47 : f.length < 47
  · rw [unserialize_short h47]
    exact Or.inl ⟨_, rfl⟩
  · have hcountEq : rootCount f = rootCount s.content := by
      obtain ⟨r, hr⟩ := hp
      unfold rootCount
      rw [← hr]
      unfold slice
      rw [List.drop_append_of_le_length (by omega), List.take_append_of_le_length (by simp; omega)]
    have hcn : ¬ (rootCount s.content < 0 ∨ rootCount s.content > maxSliceLen) := by
      intro hbad
      rw [unserialize_long (by omega), if_pos hbad] at hun
      cases hun
    rw [unserialize_long (by omega), if_neg hcn] at hun
    have hcnt : (rootCount s.content).toNat = roots.length := by
      have : ∀ (n : Nat) (d : Bytes) (l : List Nat), readOffsets n d = .ok l → l.length = n := by
        intro n
        induction n with
        | zero => intro d l h; cases h; rfl
        | succ n ih =>
          intro d l h
          simp only [readOffsets] at h
          by_cases h8 : d.length < 8
          · rw [readBytes_err h8] at h; cases h
          · rw [readBytes_ok (by omega)] at h
            simp only [bind, Except.bind] at h
            cases hr : readOffsets n (List.drop 8 d) with
            | error e => rw [hr] at h; cases h
            | ok l' =>
              rw [hr] at h
              simp only [Except.ok.injEq] at h
              subst h
              simp [ih _ _ hr]
      cases hr : readOffsets (rootCount s.content).toNat (List.drop 47 s.content) with
      | error e => rw [hr] at hun; cases hun
      | ok l =>
        rw [hr] at hun
        have hl := this _ _ _ hr
        simp only [Except.map, Except.ok.injEq] at hun
        have := congrArg Metadata.roots hun
        simp only [headerOf, buildMeta] at this
        rw [← hl, this, List.length_map]
    by_cases hshort : f.length < 47 + 8 * roots.length
    · left
      rw [unserialize_long (by omega), hcountEq, if_neg hcn, hcnt, readOffsets_short _ _ (by rw [List.length_drop]; omega)]
      exact ⟨_, rfl⟩
    · have hunf : Metadata.unserialize f = .ok (buildMeta cfg size t (roots.map (·.2.1.offset)) true) := by
        have heq := hm.eq
        rw [← hmb] at hshort
        generalize hmb' : (buildMeta cfg size t (roots.map (·.2.1.offset)) true).serialize = mb at *
        have hsplit : f = mb ++ f.drop mb.length := by
          rw [← List.take_append_drop mb.length f]
          have h3 : List.take mb.length s.content = mb := by simpa [slice] using heq
          have h4 : List.take mb.length f = mb := by
            obtain ⟨r, hr⟩ := hp
            rw [← hr, List.take_append_of_le_length (by omega)] at h3
            exact h3
          rw [h4]
          simp
        rw [hsplit, ← hmb']
        exact Metadata.unserialize_serialize _ hfits _
      rw [hunf]
      simp only [M.lift]
      cases hv : (buildMeta cfg size t (roots.map (·.2.1.offset)) true).assertValid (cfg.metadataInput input) with
      | error e => exact Or.inl ⟨e, rfl⟩
      | ok u =>
        simp only
        have hcf : (Stream.new f f.length cfg.bufferSize).content = f := by show f ++ [] = f; simp
        have := cut_loadRoots (m := buildMeta cfg size t (roots.map (·.2.1.offset)) true) htr rfl
          (s' := Stream.new f f.length cfg.bufferSize) (Stream.new_inv _ _) (by rw [hcf]; exact hp) hf.small
          (rest := roots) (done := []) (by simp) (by rw [hk]; exact hnd)
        rw [hk] at this
        rcases this with h | ⟨e, h⟩
        · exact Or.inr h
        · exact Or.inl ⟨.err e, congrArg Prod.fst h⟩

end Rodb
