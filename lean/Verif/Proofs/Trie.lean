import Verif.Model.WildcardNode
/-
  Functional radix trie (no offsets): what the on-disk tree means. First-child / next-sibling form.
-/
namespace Rodb

/-- A list of sibling trie nodes. -/
inductive Trie where
  | nil
  | cons (label : Bytes) (ps : List Int) (children next : Trie)
  deriving DecidableEq, Repr

/-- Append a position unless it is already the last one. -/
def appendPos (ps : List Int) (p : Int) : List Int := if ps.getLast? = some p then ps else ps ++ [p]

namespace Trie

/-- Concatenation of sibling lists. -/
def app : Trie → Trie → Trie
  | nil, t => t
  | cons l ps ch nx, t => cons l ps ch (nx.app t)

/-- No sibling shares a first byte with `w`. -/
def NoCommon (w : Bytes) : Trie → Prop
  | nil => True
  | cons l _ _ nx => commonPrefixLen l w = 0 ∧ nx.NoCommon w

/-- Functional counterpart of `addSequence`. -/
def insert (t : Trie) (w : Bytes) (p : Int) : Trie :=
  if w.length = 0 then t else
  match t with
  | nil => cons w [p] nil nil
  | cons l ps ch nx =>
    if commonPrefixLen l w = 0 then cons l ps ch (insert nx w p)
    else if commonPrefixLen l w < l.length then
      cons (l.take (commonPrefixLen l w)) (appendPos ps p)
        (insert (cons (l.drop (commonPrefixLen l w)) ps ch nil) (w.drop (commonPrefixLen l w)) p) nx
    else cons l (appendPos ps p) (insert ch (w.drop (commonPrefixLen l w)) p) nx
termination_by (w.length, sizeOf t)
decreasing_by
  all_goals simp_wf
  · exact Prod.Lex.right _ (by omega)
  · exact Prod.Lex.left _ _ (by omega)
  · exact Prod.Lex.left _ _ (by omega)

/-- Functional counterpart of `GetSequence` for a non-empty query. -/
def lookup (t : Trie) (w : Bytes) : Option (List Int) :=
  match t with
  | nil => none
  | cons l ps ch nx =>
    if commonPrefixLen l w = 0 then nx.lookup w
    else if commonPrefixLen l w < l.length ∧ commonPrefixLen l w < w.length then none
    else if w.length ≤ l.length then some ps
    else ch.lookup (w.drop l.length)

theorem app_nil (t : Trie) : t.app nil = t := by
  induction t with
  | nil => rfl
  | cons l ps ch nx _ ih => simp [app, ih]

theorem insert_nil_word (t : Trie) (p : Int) : t.insert [] p = t := by
  rw [insert.eq_def]; simp

theorem insert_noCommon {t : Trie} {w : Bytes} {p : Int} (hw : w ≠ []) (h : t.NoCommon w) :
    t.insert w p = t.app (cons w [p] nil nil) := by
  have hl : w.length ≠ 0 := by simpa using hw
  induction t with
  | nil => rw [insert]; simp [hl, app]
  | cons l ps ch nx _ ih =>
    rw [insert, if_neg hl]
    simp only [h.1, if_true, app, ih h.2]

theorem insert_app {t t' : Trie} {w : Bytes} {p : Int} (hw : w ≠ []) (h : t.NoCommon w) :
    (t.app t').insert w p = t.app (t'.insert w p) := by
  have hl : w.length ≠ 0 := by simpa using hw
  induction t with
  | nil => rfl
  | cons l ps ch nx _ ih =>
    rw [app, insert, if_neg hl]
    simp only [h.1, if_true, app, ih h.2]

theorem insert_split {l : Bytes} {ps : List Int} {ch nx : Trie} {w : Bytes} {p : Int}
    (hk : 0 < commonPrefixLen l w) (hlt : commonPrefixLen l w < l.length) :
    (cons l ps ch nx).insert w p =
      cons (l.take (commonPrefixLen l w)) (appendPos ps p)
        (insert (cons (l.drop (commonPrefixLen l w)) ps ch nil) (w.drop (commonPrefixLen l w)) p) nx := by
  have hl : w.length ≠ 0 := by
    intro h
    have : w = [] := by simpa using h
    subst this
    cases l <;> simp [commonPrefixLen] at hk
  rw [insert, if_neg hl]
  simp only [if_neg (show ¬ commonPrefixLen l w = 0 by omega), if_pos hlt]

theorem insert_descend {l : Bytes} {ps : List Int} {ch nx : Trie} {w : Bytes} {p : Int}
    (hk : 0 < commonPrefixLen l w) (hlt : ¬ commonPrefixLen l w < l.length) :
    (cons l ps ch nx).insert w p =
      cons l (appendPos ps p) (insert ch (w.drop (commonPrefixLen l w)) p) nx := by
  have hl : w.length ≠ 0 := by
    intro h
    have : w = [] := by simpa using h
    subst this
    cases l <;> simp [commonPrefixLen] at hk
  rw [insert, if_neg hl]
  simp only [if_neg (show ¬ commonPrefixLen l w = 0 by omega), if_neg hlt]

end Trie

theorem commonPrefixLen_le_left (a b : Bytes) : commonPrefixLen a b ≤ a.length := by
  induction a generalizing b with
  | nil => simp [commonPrefixLen]
  | cons x a ih =>
    cases b with
    | nil => simp [commonPrefixLen]
    | cons y b =>
      simp only [commonPrefixLen]
      split
      · have := ih b; simp; omega
      · simp

theorem commonPrefixLen_le_right (a b : Bytes) : commonPrefixLen a b ≤ b.length := by
  induction a generalizing b with
  | nil => simp [commonPrefixLen]
  | cons x a ih =>
    cases b with
    | nil => simp [commonPrefixLen]
    | cons y b =>
      simp only [commonPrefixLen]
      split
      · have := ih b; simp; omega
      · simp

theorem take_commonPrefixLen (a b : Bytes) :
    a.take (commonPrefixLen a b) = b.take (commonPrefixLen a b) := by
  induction a generalizing b with
  | nil => simp [commonPrefixLen]
  | cons x a ih =>
    cases b with
    | nil => simp [commonPrefixLen]
    | cons y b =>
      simp only [commonPrefixLen]
      split
      · rename_i h; simp [ih b, h]
      · simp

theorem commonPrefixLen_maximal (a b : Bytes) (h1 : commonPrefixLen a b < a.length)
    (h2 : commonPrefixLen a b < b.length) :
    a[commonPrefixLen a b]? ≠ b[commonPrefixLen a b]? := by
  induction a generalizing b with
  | nil => simp at h1
  | cons x a ih =>
    cases b with
    | nil => simp at h2
    | cons y b =>
      simp only [commonPrefixLen] at h1 h2 ⊢
      split
      · rename_i h
        rw [if_pos h] at h1 h2
        simpa using ih b (by simpa using h1) (by simpa using h2)
      · rename_i h; simpa using h

end Rodb
