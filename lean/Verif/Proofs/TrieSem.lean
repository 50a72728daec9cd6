import Verif.Proofs.RootOps
/-
  Meaning of the functional trie: looking up `w` gives the positions inserted with a sequence that
  starts with `w`.
-/
namespace Rodb

theorem commonPrefixLen_append (u x y : Bytes) :
    commonPrefixLen (u ++ x) (u ++ y) = u.length + commonPrefixLen x y := by
  induction u with
  | nil => simp
  | cons a u ih => simp [commonPrefixLen, ih]; omega

theorem commonPrefixLen_ne {a b : UInt8} (h : a ≠ b) (x y : Bytes) :
    commonPrefixLen (a :: x) (b :: y) = 0 := by simp [commonPrefixLen, h]

theorem commonPrefixLen_nil_right (x : Bytes) : commonPrefixLen x [] = 0 := by cases x <;> simp [commonPrefixLen]
theorem commonPrefixLen_nil_left (x : Bytes) : commonPrefixLen [] x = 0 := by simp [commonPrefixLen]

/-- Two byte strings: one extends the other, or they differ after a common part. -/
theorem compare_cases (u w : Bytes) :
    (∃ w', w = u ++ w') ∨ (∃ u', u' ≠ [] ∧ u = w ++ u') ∨
      (∃ v a b u' w', a ≠ b ∧ u = v ++ a :: u' ∧ w = v ++ b :: w') := by
  induction u generalizing w with
  | nil => exact Or.inl ⟨w, rfl⟩
  | cons x u ih =>
    cases w with
    | nil => exact Or.inr (Or.inl ⟨x :: u, by simp, rfl⟩)
    | cons y w =>
      by_cases h : x = y
      · subst h
        rcases ih w with ⟨w', h⟩ | ⟨u', h0, h⟩ | ⟨v, a, b, u', w', h1, h2, h3⟩
        · exact Or.inl ⟨w', by rw [h]; rfl⟩
        · exact Or.inr (Or.inl ⟨u', h0, by rw [h]; rfl⟩)
        · exact Or.inr (Or.inr ⟨x :: v, a, b, u', w', h1, by rw [h2]; rfl, by rw [h3]; rfl⟩)
      · exact Or.inr (Or.inr ⟨[], x, y, u, w, h, rfl, rfl⟩)

theorem prefix_append_iff (u x y : Bytes) : u ++ x <+: u ++ y ↔ x <+: y := by
  induction u with
  | nil => simp
  | cons a u ih => simp [List.cons_prefix_cons, ih]

namespace Trie

/-- Looking below a label. -/
theorem lookup_below {u : Bytes} (hu : u ≠ []) {w : Bytes} (hw : w ≠ []) (ps : List Int) (ch nx : Trie) :
    (cons u ps ch nx).lookup (u ++ w) = ch.lookup w := by
  have h1 : commonPrefixLen u (u ++ w) = u.length := by
    have := commonPrefixLen_append u [] w
    simpa [commonPrefixLen_nil_left] using this
  have hl : 0 < u.length := List.length_pos_iff.mpr hu
  have hl' : 0 < w.length := List.length_pos_iff.mpr hw
  rw [lookup, h1, if_neg (by omega), if_neg (by omega), if_neg (by simp; omega)]
  simp

/-- Looking inside a label. -/
theorem lookup_inside {w : Bytes} (hw : w ≠ []) (u : Bytes) (ps : List Int) (ch nx : Trie) :
    (cons (w ++ u) ps ch nx).lookup w = some ps := by
  have h1 : commonPrefixLen (w ++ u) w = w.length := by
    have := commonPrefixLen_append w u []
    simpa [commonPrefixLen_nil_right] using this
  have hl' : 0 < w.length := List.length_pos_iff.mpr hw
  rw [lookup, h1, if_neg (by omega), if_neg (by omega), if_pos (by simp)]

/-- Diverging from a label after a non-empty common part. -/
theorem lookup_diverge {v : Bytes} (hv : v ≠ []) {a b : UInt8} (h : a ≠ b) (x y : Bytes) (ps : List Int) (ch nx : Trie) :
    (cons (v ++ a :: x) ps ch nx).lookup (v ++ b :: y) = none := by
  have h1 : commonPrefixLen (v ++ a :: x) (v ++ b :: y) = v.length := by
    rw [commonPrefixLen_append, commonPrefixLen_ne h]; rfl
  have hl' : 0 < v.length := List.length_pos_iff.mpr hv
  rw [lookup, h1, if_neg (by omega), if_pos (by simp)]

/-- Nothing in common with the label. -/
theorem lookup_skip {a b : UInt8} (h : a ≠ b) (x y : Bytes) (ps : List Int) (ch nx : Trie) :
    (cons (a :: x) ps ch nx).lookup (b :: y) = nx.lookup (b :: y) := by
  rw [lookup, if_pos (commonPrefixLen_ne h x y)]

/-- Splitting a label does not change what is below. -/
theorem lookup_split_label {u : Bytes} (hu : u ≠ []) {l' : Bytes} (hl : l' ≠ []) {w : Bytes} (hw : w ≠ [])
    (ps : List Int) (ch nx : Trie) :
    (cons (u ++ l') ps ch nx).lookup (u ++ w) = (cons l' ps ch nil).lookup w := by
  have hul : 0 < u.length := List.length_pos_iff.mpr hu
  rcases compare_cases l' w with ⟨w', rfl⟩ | ⟨u', hu', rfl⟩ | ⟨v, a, b, x, y, hab, rfl, rfl⟩
  · by_cases hw' : w' = []
    · subst hw'
      have e1 := lookup_inside (w := u ++ l') (by simp [hu]) [] ps ch nx
      have e2 := lookup_inside (w := l') hl [] ps ch nil
      simp only [List.append_nil] at e1 e2 ⊢
      rw [e1, e2]
    · rw [← List.append_assoc, lookup_below (by simp [hu]) hw', lookup_below hl hw']
  · rw [← List.append_assoc, lookup_inside (by simp [hu]), lookup_inside hw]
  · rw [← List.append_assoc, ← List.append_assoc, lookup_diverge (by simp [hu]) hab]
    by_cases hv : v = []
    · subst hv
      rw [List.nil_append, List.nil_append, lookup_skip hab]; rfl
    · rw [lookup_diverge hv hab]

/-- What an insertion changes: exactly the non-empty prefixes of the inserted sequence. -/
theorem lookup_insert (t : Trie) (s : Bytes) (p : Int) (w : Bytes) (hw : w ≠ []) :
    (t.insert s p).lookup w =
      if w <+: s then some (appendPos ((t.lookup w).getD []) p) else t.lookup w := by
  induction t, s using Trie.insert.induct generalizing w with
  | case1 t s hs =>
    have : s = [] := by simpa using hs
    subst this
    rw [insert_nil_word, if_neg]
    rw [List.prefix_nil]; exact hw
  | case2 s hs =>
    have hs' : s ≠ [] := by simpa using hs
    rw [insert, if_neg hs]
    rcases compare_cases s w with ⟨w', rfl⟩ | ⟨u', hu', rfl⟩ | ⟨v, a, b, x, y, hab, rfl, rfl⟩
    · by_cases hw' : w' = []
      · subst hw'
        have e1 := lookup_inside (w := s) hs' [] [p] nil nil
        simp only [List.append_nil] at e1 ⊢
        rw [e1, if_pos (List.prefix_refl _)]
        rfl
      · rw [lookup_below hs' hw', if_neg]
        · rfl
        · intro h
          have := h.length_le
          have := List.length_pos_iff.mpr hw'
          simp at *; omega
    · rw [lookup_inside hw, if_pos (List.prefix_append _ _)]; rfl
    · have hnp : ¬ (v ++ b :: y <+: v ++ a :: x) := by
        rw [prefix_append_iff, List.cons_prefix_cons]; exact fun h => hab h.1.symm
      rw [if_neg hnp]
      by_cases hv : v = []
      · subst hv
        rw [List.nil_append, List.nil_append, lookup_skip hab]
      · rw [lookup_diverge hv hab]; rfl
  | case3 s hs l ps ch nx hk ih =>
    rw [insert, if_neg hs]
    simp only [if_pos hk]
    rw [lookup, ih w hw]
    have e2 : (cons l ps ch nx).lookup w = if commonPrefixLen l w = 0 then nx.lookup w else (cons l ps ch nx).lookup w := by
      split
      · rename_i h; rw [lookup, if_pos h]
      · rfl
    by_cases h0 : commonPrefixLen l w = 0
    · rw [if_pos h0, e2, if_pos h0]
    · rw [if_neg h0]
      have hnp : ¬ (w <+: s) := by
        intro hp
        obtain ⟨r, rfl⟩ := hp
        cases l with
        | nil => exact h0 (commonPrefixLen_nil_left _)
        | cons a l =>
          cases w with
          | nil => exact hw rfl
          | cons b w =>
            simp only [List.cons_append, commonPrefixLen] at hk h0
            split at hk
            · omega
            · rename_i h; simp [h] at h0
      rw [if_neg hnp, lookup, if_neg h0]
  | case4 s hs l ps ch nx hk hlt ih =>
    have hle := commonPrefixLen_le_left l s
    have hle' := commonPrefixLen_le_right l s
    rw [insert_split (by omega) hlt]
    generalize hu : l.take (commonPrefixLen l s) = u at *
    generalize hl' : l.drop (commonPrefixLen l s) = l' at *
    generalize hs' : s.drop (commonPrefixLen l s) = s' at *
    have hl : l = u ++ l' := by rw [← hu, ← hl', List.take_append_drop]
    have hss : s = u ++ s' := by
      rw [← hu, ← hs', take_commonPrefixLen, List.take_append_drop]
    have hune : u ≠ [] := by
      intro h; have := congrArg List.length h; rw [← hu] at this
      simp only [List.length_take, List.length_nil] at this; omega
    have hlne : l' ≠ [] := by
      intro h; have := congrArg List.length h; rw [← hl'] at this
      simp only [List.length_drop, List.length_nil] at this; omega
    clear hu hl' hs' hlt hle hle' hk hs
    subst hl hss
    rcases compare_cases u w with ⟨w', rfl⟩ | ⟨u', hu', rfl⟩ | ⟨v, a, b, x, y, hab, rfl, rfl⟩
    · by_cases hw' : w' = []
      · subst hw'
        simp only [List.append_nil]
        have e1 := lookup_inside (w := u) hune [] (appendPos ps p) (insert (cons l' ps ch nil) s' p) nx
        simp only [List.append_nil] at e1
        rw [e1, if_pos (List.prefix_append _ _), lookup_inside hune]
        rfl
      · rw [lookup_below hune hw', ih w' hw', lookup_split_label hune hlne hw' ps ch nx]
        simp only [prefix_append_iff]
    · rw [lookup_inside hw, List.append_assoc, if_pos (List.prefix_append _ _), List.append_assoc, lookup_inside hw]
      rfl
    · have hnp : ¬ (v ++ b :: y <+: v ++ a :: x ++ s') := by
        rw [List.append_assoc, prefix_append_iff, List.cons_append, List.cons_prefix_cons]
        exact fun h => hab h.1.symm
      rw [if_neg hnp, List.append_assoc, List.cons_append]
      by_cases hv : v = []
      · subst hv
        simp only [List.nil_append]
        rw [lookup_skip hab, lookup_skip hab]
      · rw [lookup_diverge hv hab, lookup_diverge hv hab]
  | case5 s hs l ps ch nx hk hlt ih =>
    have hle := commonPrefixLen_le_left l s
    have hle' := commonPrefixLen_le_right l s
    rw [insert_descend (by omega) hlt]
    have hke : commonPrefixLen l s = l.length := by omega
    generalize hs' : s.drop (commonPrefixLen l s) = s' at *
    have hss : s = l ++ s' := by
      have := take_commonPrefixLen l s
      rw [hke, List.take_length] at this
      rw [← hs', hke]
      exact (List.take_append_drop l.length s).symm.trans (by rw [← this])
    have hune : l ≠ [] := by
      intro h; rw [h] at hke hk; simp [commonPrefixLen_nil_left] at hk
    clear hs' hlt hle hle' hk hs hke
    subst hss
    rcases compare_cases l w with ⟨w', rfl⟩ | ⟨u', hu', rfl⟩ | ⟨v, a, b, x, y, hab, rfl, rfl⟩
    · by_cases hw' : w' = []
      · subst hw'
        simp only [List.append_nil]
        have e1 := lookup_inside (w := l) hune [] (appendPos ps p) (insert ch s' p) nx
        have e2 := lookup_inside (w := l) hune [] ps ch nx
        simp only [List.append_nil] at e1 e2
        rw [e1, if_pos (List.prefix_append _ _), e2]
        rfl
      · rw [lookup_below hune hw', ih w' hw', lookup_below hune hw']
        simp only [prefix_append_iff]
    · rw [lookup_inside hw, List.append_assoc, if_pos (List.prefix_append _ _), lookup_inside hw]
      rfl
    · have hnp : ¬ (v ++ b :: y <+: v ++ a :: x ++ s') := by
        rw [List.append_assoc, prefix_append_iff, List.cons_append, List.cons_prefix_cons]
        exact fun h => hab h.1.symm
      rw [if_neg hnp]
      by_cases hv : v = []
      · subst hv
        simp only [List.nil_append]
        rw [lookup_skip hab, lookup_skip hab]
      · rw [lookup_diverge hv hab, lookup_diverge hv hab]

theorem appendPos_idem (ps : List Int) (p : Int) : appendPos (appendPos ps p) p = appendPos ps p := by
  unfold appendPos
  split
  · rfl
  · simp

theorem lookup_insertSuffixes (v : Bytes) (p : Int) (w : Bytes) (hw : w ≠ []) : ∀ t : Trie,
    (t.insertSuffixes v p).lookup w =
      if w <:+: v then some (appendPos ((t.lookup w).getD []) p) else t.lookup w := by
  induction v with
  | nil =>
    intro t
    rw [if_neg]
    · rfl
    · rw [List.infix_nil]; exact hw
  | cons b v ih =>
    intro t
    rw [insertSuffixes, ih, lookup_insert _ _ _ _ hw]
    by_cases h1 : w <+: b :: v
    · rw [if_pos h1, if_pos (show w <:+: b :: v from h1.isInfix)]
      by_cases h2 : w <:+: v
      · rw [if_pos h2]; simp [appendPos_idem]
      · rw [if_neg h2]
    · rw [if_neg h1]
      by_cases h2 : w <:+: v
      · rw [if_pos h2, if_pos (List.infix_cons_iff.mpr (Or.inr h2))]
      · rw [if_neg h2, if_neg]
        intro h
        rcases List.infix_cons_iff.mp h with h | h
        · exact h1 h
        · exact h2 h

/-- The trie of a list of (value, position). -/
def build (t : Trie) : List (Bytes × Int) → Trie
  | [] => t
  | (v, p) :: r => build (t.insertSuffixes v p) r

/-- The positions of the values containing `w`. -/
def containing (w : Bytes) (vs : List (Bytes × Int)) : List Int :=
  (vs.filter (fun x => decide (w <:+: x.1))).map (·.2)

theorem lookup_build (w : Bytes) (hw : w ≠ []) (vs : List (Bytes × Int)) : ∀ t : Trie,
    (∀ ps, t.lookup w = some ps → ps ≠ []) →
    (vs.map (·.2)).Pairwise (· < ·) → (∀ q ∈ (t.lookup w).getD [], ∀ x ∈ vs, q < x.2) →
    ((t.build vs).lookup w).getD [] = (t.lookup w).getD [] ++ containing w vs ∧
      (∀ ps, (t.build vs).lookup w = some ps → ps ≠ []) := by
  induction vs with
  | nil => intro t h1 h2 h3; simp [build, containing]; exact h1
  | cons x vs ih =>
    obtain ⟨v, p⟩ := x
    intro t h1 h2 h3
    simp only [List.map_cons, List.pairwise_cons] at h2
    have hl := lookup_insertSuffixes v p w hw t
    have hap : appendPos ((t.lookup w).getD []) p = (t.lookup w).getD [] ++ [p] := by
      unfold appendPos
      rw [if_neg]
      intro h
      have := List.mem_of_getLast? h
      have := h3 p this (v, p) (by simp)
      simp at this
    rw [hap] at hl
    have h1' : ∀ ps, (t.insertSuffixes v p).lookup w = some ps → ps ≠ [] := by
      intro ps hps
      rw [hl] at hps
      split at hps
      · cases hps; simp
      · exact h1 ps hps
    obtain ⟨ih1, ih2⟩ := ih (t.insertSuffixes v p) h1' h2.2 (by
      intro q hq x hx
      rw [hl] at hq
      split at hq
      · simp only [Option.getD_some, List.mem_append, List.mem_singleton] at hq
        rcases hq with hq | rfl
        · exact h3 q hq x (by simp [hx])
        · exact h2.1 x.2 (List.mem_map.mpr ⟨x, hx, rfl⟩)
      · exact h3 q hq x (by simp [hx]))
    refine ⟨?_, ih2⟩
    rw [build, ih1, hl]
    by_cases hi : w <:+: v
    · simp [hi, containing]
    · simp [hi, containing]

end Trie
end Rodb
