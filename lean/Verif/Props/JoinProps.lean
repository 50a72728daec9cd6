import Verif.Proofs.Join
/-
  C20, C21, C22: joining position iterators (pkg/input/record/join.go).
-/
namespace Rodb
open Spec

/-- C20. Joining any number (at least one) of iterators over strictly increasing lists of positions
yields, without error, the sorted intersection of the lists. -/
theorem C20_join_is_sorted_intersection (ls : List (List Int)) (hne : ls ≠ [])
    (hs : ∀ l ∈ ls, Increasing l) :
    ∃ out : List Int, joinIters (ls.map iterateList) = out.map .ok ∧ IsIntersection ls out :=
  joinIters_sorted ls hne hs

/-- C20. The result does not depend on the order in which the iterators are given, nor on repetitions:
two sets of iterators with the same lists give the same answers. -/
theorem C20_join_order_irrelevant (ls ls' : List (List Int)) (hne : ls ≠ [])
    (hs : ∀ l ∈ ls, Increasing l) (hsame : ∀ l, l ∈ ls ↔ l ∈ ls') :
    joinIters (ls.map iterateList) = joinIters (ls'.map iterateList) := by
  have hne' : ls' ≠ [] := by
    cases ls with
    | nil => exact absurd rfl hne
    | cons l ls => exact List.ne_nil_of_mem ((hsame l).mp List.mem_cons_self)
  obtain ⟨o, h1, h2, h3⟩ := C20_join_is_sorted_intersection ls hne hs
  obtain ⟨o', h1', h2', h3'⟩ := C20_join_is_sorted_intersection ls' hne' (fun l hl => hs l ((hsame l).mpr hl))
  rw [h1, h1']
  congr 1
  apply increasing_ext h2 h2'
  intro x
  rw [h3, h3']
  exact ⟨fun h l hl => h l ((hsame l).mpr hl), fun h l hl => h l ((hsame l).mp hl)⟩

example : joinIters ([[1,3,5,9],[3,4,5],[-2,3,5,7]].map iterateList) = [3,5].map .ok ∧
    (∀ l ∈ [[1,3,5,9],[3,4,5],[-2,3,5,7]], Increasing l) := by
  refine ⟨by decide, ?_⟩
  simp [Increasing]

/-- The state of the joined iterator after `n` calls. -/
def joinAfter : Nat → List PIter → List PIter
  | 0, its => its
  | n+1, its => joinAfter n (joinCall its).2

theorem joinAfter_sorted (n : Nat) (ls : List (List Int)) (hs : ∀ l ∈ ls, Increasing l) :
    ∃ ls', joinAfter n (encAll ls) = encAll ls' ∧ (∀ l ∈ ls', Increasing l) ∧ ls'.length = ls.length ∧
      ∀ x, InAll ls' x → InAll ls x := by
  induction n generalizing ls with
  | zero => exact ⟨ls, rfl, hs, rfl, fun _ h => h⟩
  | succ n ih =>
    by_cases hne : ls = []
    · subst hne
      obtain ⟨ls', h1, h2, h3, h4⟩ := ih [] hs
      exact ⟨ls', h1, h2, h3, h4⟩
    · have hc := joinCall_spec ls hne hs
      rcases hc with ⟨p, l', h1, h2, h3, h4, h5, h6, h7⟩ | ⟨l', h1, h2, h3, h4, h5⟩
      · obtain ⟨ls', k1, k2, k3, k4⟩ := ih l' h3
        exact ⟨ls', by simp [joinAfter, h1, k1], k2, by omega, fun x hx => ((h6 x).mp (k4 x hx)).1⟩
      · obtain ⟨ls', k1, k2, k3, k4⟩ := ih l' h3
        exact ⟨ls', by simp [joinAfter, h1, k1], k2, by omega, fun x hx => h5 x (k4 x hx)⟩

/-- C21. For any increasing iterators, in whatever state `n` calls left them: if the joined iterator
reports the end, it reports the end again after any number `k` of further calls. -/
theorem C21_join_end_is_stable (ls : List (List Int)) (hs : ∀ l ∈ ls, Increasing l) (n k : Nat)
    (hend : (joinCall (joinAfter n (ls.map iterateList))).1 = .ok none) :
    (joinCall (joinAfter k (joinCall (joinAfter n (ls.map iterateList))).2)).1 = .ok none := by
  obtain ⟨l1, h1, h2, h3, _⟩ := joinAfter_sorted n ls hs
  have h1' : joinAfter n (ls.map iterateList) = encAll l1 := h1
  rw [h1'] at hend ⊢
  by_cases hne : l1 = []
  · subst hne
    have : ∀ k, joinAfter k ([] : List PIter) = [] := by
      intro k; induction k with
      | zero => rfl
      | succ k ih => simpa [joinAfter, joinCall] using ih
    simp [encAll, joinCall, this]
  · rcases joinCall_spec l1 hne h2 with ⟨p, l', g1, _⟩ | ⟨l', g1, g2, g3, g4, g5⟩
    · rw [g1] at hend; simp at hend
    · rw [g1]
      obtain ⟨l2, k1, k2, k3, k4⟩ := joinAfter_sorted k l' g3
      simp only [k1]
      have hne2 : l2 ≠ [] := by
        intro h; subst h
        simp at k3
        exact hne (List.length_eq_zero_iff.mp (by omega))
      rcases joinCall_spec l2 hne2 k2 with ⟨p, l3, m1, _, _, m4, _⟩ | ⟨l3, m1, _⟩
      · exact absurd (g5 p (k4 p m4)) (g4 p)
      · rw [m1]

example : (joinCall (joinAfter 1 ([[1,4],[1,2,9]].map iterateList))).1 = .ok none ∧
    (joinCall (joinAfter 0 ([[1,4],[1,2,9]].map iterateList))).1 = .ok (some 1) := by decide

/-- C22 for the join. One call of the joined iterator, from any state of any iterators (sorted or not,
failing anywhere): the outcomes `cs` that the call fetched from the iterators contain an error exactly
when the call reports that error. So no error is swallowed or turned into an end of results, and none
is invented. -/
theorem C22_join_reports_errors_partial (its : List PIter) :
    ∃ cs : List PIter, cs.length = (joinCall its).2.length ∧
      its = List.zipWith (· ++ ·) cs (joinCall its).2 ∧
      ∀ e, .error e ∈ cs.flatten ↔ (joinCall its).1 = .error e := by
  obtain ⟨cs, ⟨h1, h2⟩, h3⟩ := joinCall_reports its
  exact ⟨cs, h1, h2, h3⟩

/-- The bound used by `joinIters` on the number of calls is never what ends a run: the outcome
`diverge`, which `outcomes` gives when the bound is hit, does not occur. -/
theorem joinIters_complete (its : List PIter) : .error .diverge ∉ its.flatten →
    .error .diverge ∉ joinIters its := by
  suffices h : ∀ fuel (its : List PIter), (its.headD []).length < fuel → .error .diverge ∉ its.flatten →
      .error .diverge ∉ outcomes joinCall fuel its from h _ _ (Nat.lt_succ_self _)
  intro fuel
  induction fuel with
  | zero => intro its h; omega
  | succ fuel ih =>
    intro its hf hd
    obtain ⟨cs, ⟨h1, h2⟩, h3⟩ := joinCall_reports its
    have hsub : ∀ o, o ∈ cs.flatten ∨ o ∈ (joinCall its).2.flatten → o ∈ its.flatten := by
      intro o ho
      rw [h2]
      generalize (joinCall its).2 = its' at h1 ho
      clear h2 h3 hf hd ih
      induction cs generalizing its' with
      | nil =>
        have : its' = [] := List.length_eq_zero_iff.mp h1.symm
        subst this; simp at ho
      | cons c cs ihc =>
        cases its' with
        | nil => simp at h1
        | cons i its' =>
          have := ihc its' (by simpa using h1)
          simp only [List.flatten_cons, List.mem_append, List.zipWith_cons_cons] at ho ⊢
          rcases ho with (h | h) | (h | h)
          · exact Or.inl (Or.inl h)
          · exact Or.inr (this (Or.inl h))
          · exact Or.inl (Or.inr h)
          · exact Or.inr (this (Or.inr h))
    have hhead : ∀ p, (joinCall its).1 = .ok (some p) → ((joinCall its).2.headD []).length < (its.headD []).length := by
      clear h2 h3 hf hd ih hsub h1
      intro p hp
      match its with
      | [] => simp [joinCall] at hp
      | [it] => cases it with
        | nil => simp [joinCall, PIter.call] at hp
        | cons r it => cases r with
          | ok q => simp [joinCall, PIter.call]
          | error e => simp [joinCall, PIter.call] at hp
      | it :: it2 :: its =>
        simp only [joinCall] at hp ⊢
        generalize joinPrime (it2 :: its) = r at hp ⊢
        obtain ⟨r, its'⟩ := r
        rcases r with e | _ | ps
        · simp at hp
        · simp at hp
        · simp only [List.headD_cons] at hp ⊢
          generalize ps.zip its' = o at hp ⊢
          induction it generalizing o with
          | nil => simp [joinMain] at hp
          | cons r it iht => cases r with
            | error e => simp [joinMain] at hp
            | ok q =>
              simp only [joinMain] at hp ⊢
              generalize joinCheck q o = r at hp ⊢
              obtain ⟨r, o'⟩ := r
              cases r with
              | found => simp
              | ended => simp at hp
              | failed e => simp at hp
              | notFound =>
                simp only at hp ⊢
                have := iht o' hp
                simp only [List.length_cons]; omega
    simp only [outcomes]
    generalize hr : joinCall its = r at *
    obtain ⟨r, its'⟩ := r
    rcases r with e | _ | p
    · simp only [List.mem_singleton]
      intro h
      have he : e = .diverge := by simpa using h.symm
      subst he
      exact hd (hsub _ (Or.inl ((h3 _).mpr rfl)))
    · simp
    · simp only [List.mem_cons, reduceCtorEq, false_or]
      apply ih
      · have := hhead p rfl
        simp only at this
        omega
      · intro h
        exact hd (hsub _ (Or.inr h))

example : (joinCall [[.ok 1, .ok 4], [.ok 2, .error (.err "disk")]]).1 = .error (.err "disk") ∧
    (joinCall [[.ok 1, .ok 4], [.ok 4, .error (.err "disk")]]).1 = .ok (some 4) := by
  refine ⟨by rfl, by rfl⟩

end Rodb
