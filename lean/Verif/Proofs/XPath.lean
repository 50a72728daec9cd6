import Verif.Spec.XPath
/-
  Where the paths of XPath expressions lead.
-/
namespace Rodb
open Spec

/-! ### Nodes with their places -/

/-- The nodes that are found in each of some children, with their places. -/
def eachAt (f : XmlNode → List (List Nat × XmlNode)) : Nat → List XmlNode → List (List Nat × XmlNode)
  | _, [] => []
  | i, c :: cs => (f c).map (fun x => (i :: x.1, x.2)) ++ eachAt f (i + 1) cs

theorem eachAt_mem {f : XmlNode → List (List Nat × XmlNode)} {place : List Nat} {t : XmlNode} : ∀ {cs : List XmlNode} {i : Nat},
    (place, t) ∈ eachAt f i cs ↔ ∃ (k : Nat) (rest : List Nat) (c : XmlNode), place = (i + k) :: rest ∧ cs[k]? = some c ∧ (rest, t) ∈ f c := by
  intro cs
  induction cs with
  | nil => intro i; simp [eachAt]
  | cons c cs ih =>
    intro i
    simp only [eachAt, List.mem_append, List.mem_map, ih]
    constructor
    · rintro (⟨⟨rest, t'⟩, hx, he⟩ | ⟨k, rest, c', rfl, hc, hx⟩)
      · simp only [Prod.mk.injEq] at he
        obtain ⟨rfl, rfl⟩ := he
        exact ⟨0, rest, c, by simp, rfl, hx⟩
      · exact ⟨k + 1, rest, c', by simp; omega, hc, hx⟩
    · rintro ⟨k, rest, c', rfl, hc, hx⟩
      cases k with
      | zero =>
        simp only [List.getElem?_cons_zero, Option.some.injEq] at hc
        subst hc
        exact .inl ⟨(rest, t), hx, by simp⟩
      | succ k => exact .inr ⟨k, rest, c', by simp; omega, hc, hx⟩

theorem eachAt_snd (f : XmlNode → List (List Nat × XmlNode)) : ∀ (cs : List XmlNode) (i : Nat), (eachAt f i cs).map (·.2) = cs.flatMap (fun c => (f c).map (·.2))
  | [], _ => rfl
  | c :: cs, i => by
    rw [eachAt, List.map_append, eachAt_snd f cs, List.flatMap_cons, List.map_map]
    rfl

/-- The places are in the order of the document. -/
def InOrder (l : List (List Nat × XmlNode)) : Prop := l.Pairwise (fun a b => PlaceBefore a.1 b.1)

theorem eachAt_ordered {f : XmlNode → List (List Nat × XmlNode)} : ∀ {cs : List XmlNode} {i : Nat}, (∀ c ∈ cs, InOrder (f c)) → InOrder (eachAt f i cs) := by
  intro cs
  induction cs with
  | nil => intro i _; exact List.Pairwise.nil
  | cons c cs ih =>
    intro i h
    rw [eachAt, InOrder, List.pairwise_append]
    refine ⟨?_, ih (fun c hc => h c (.tail _ hc)), ?_⟩
    · refine List.pairwise_map.2 ((h c (.head _)).imp ?_)
      intro a b hab
      exact .cons hab
    · rintro ⟨p, t⟩ ha ⟨q, u⟩ hb
      obtain ⟨⟨r, t'⟩, _, he⟩ := List.mem_map.1 ha
      simp only [Prod.mk.injEq] at he
      obtain ⟨rfl, rfl⟩ := he
      obtain ⟨k, r', c', rfl, _, _⟩ := eachAt_mem.1 hb
      exact .rel (by omega)

/-- The nodes that the steps lead to, with their places. -/
def followAt : List XStep → XmlNode → List (List Nat × XmlNode)
  | [], node => [([], node)]
  | s :: steps, node => eachAt (fun c => if s.accepts c = true then followAt steps c else []) 0 (childrenOf node)

theorem filter_flatMap_ite {α β : Type} (p : α → Bool) (f : α → List β) : ∀ l : List α, (l.filter p).flatMap f = l.flatMap (fun a => if p a = true then f a else [])
  | [] => rfl
  | a :: l => by
    rw [List.filter_cons, List.flatMap_cons]
    by_cases h : p a = true
    · rw [if_pos h, if_pos h, List.flatMap_cons, filter_flatMap_ite p f l]
    · rw [if_neg h, if_neg h, List.nil_append, filter_flatMap_ite p f l]

theorem followSteps_at : ∀ (steps : List XStep) (nodes : List XmlNode), followSteps steps nodes = nodes.flatMap (fun node => (followAt steps node).map (·.2))
  | [], nodes => by
    simp only [followSteps, followAt, List.map_cons, List.map_nil]
    induction nodes with
    | nil => rfl
    | cons a l ih => rw [List.flatMap_cons, ← ih]; rfl
  | s :: steps, nodes => by
    rw [followSteps, followSteps_at steps, List.flatMap_assoc]
    congr 1
    funext node
    rw [followAt, eachAt_snd, filter_flatMap_ite]
    congr 1
    funext c
    by_cases h : s.accepts c = true
    · rw [if_pos h, if_pos h]
    · rw [if_neg h, if_neg h]; rfl

theorem attrValue_lookup (attr : List (String × Bytes)) (name : List Char) : attrValue attr name = attr.lookup (String.ofList name) := by
  rw [attrValue]
  induction attr with
  | nil => rfl
  | cons a attr ih =>
    obtain ⟨k, v⟩ := a
    rw [List.find?_cons, List.lookup_cons]
    by_cases h : k = String.ofList name
    · subst h; simp
    · have h' : (String.ofList name == k) = false := by simpa using fun e => h e.symm
      simp only [h, decide_false, h']
      exact ih

theorem predHolds_iff {attr : List (String × Bytes)} {children : List XmlNode} {q : XPred} : q.holds attr children = true ↔ PredHolds attr children q := by
  cases q with
  | has a => simp [XPred.holds, PredHolds, attrValue_lookup, Option.isSome_iff_exists]
  | lacks a => simp [XPred.holds, PredHolds, attrValue_lookup]
  | equals a v => simp [XPred.holds, PredHolds, attrValue_lookup]
  | child name =>
    simp only [XPred.holds, PredHolds, List.any_eq_true]
    constructor
    · rintro ⟨c, hc, h⟩
      cases c with
      | element n a cs =>
        simp only [isNamed, decide_eq_true_eq] at h
        subst h
        exact ⟨a, cs, hc⟩
      | other k d => cases h
    · rintro ⟨a, cs, hc⟩
      exact ⟨_, hc, by simp [isNamed]⟩

theorem accepts_iff {s : XStep} {node : XmlNode} : s.accepts node = true ↔ StepTo s node := by
  cases node with
  | other k d => simp [XStep.accepts, StepTo]
  | element name attr children =>
    simp only [XStep.accepts, StepTo, Bool.and_eq_true, List.all_eq_true, predHolds_iff]
    constructor
    · rintro ⟨h1, h2⟩
      refine ⟨name, attr, children, rfl, fun n hn => ?_, h2⟩
      rw [hn] at h1
      exact of_decide_eq_true h1
    · rintro ⟨n, a, cs, he, h1, h2⟩
      cases he
      refine ⟨?_, h2⟩
      cases hn : s.name with
      | none => rfl
      | some n => exact decide_eq_true (h1 n hn)

theorem followAt_mem : ∀ {steps : List XStep} {node : XmlNode} {place : List Nat} {t : XmlNode}, (place, t) ∈ followAt steps node ↔ Follows steps node place t
  | [], node, place, t => by
    simp only [followAt, List.mem_singleton, Prod.mk.injEq]
    constructor
    · rintro ⟨rfl, rfl⟩; exact .here
    · intro h; cases h; exact ⟨rfl, rfl⟩
  | s :: steps, node, place, t => by
    rw [followAt, eachAt_mem]
    constructor
    · rintro ⟨k, rest, c, rfl, hc, hx⟩
      by_cases ha : s.accepts c = true
      · rw [if_pos ha, followAt_mem] at hx
        cases node with
        | element name attr children => rw [Nat.zero_add]; exact .child hc (accepts_iff.1 ha) hx
        | other kind data => simp [childrenOf] at hc
      · rw [if_neg ha] at hx; cases hx
    · intro h
      cases h with
      | child hc hs hf =>
        refine ⟨_, _, _, by rw [Nat.zero_add], hc, ?_⟩
        rw [if_pos (accepts_iff.2 hs)]
        exact followAt_mem.2 hf

theorem followAt_ordered : ∀ (steps : List XStep) (node : XmlNode), InOrder (followAt steps node)
  | [], _ => List.pairwise_singleton _ _
  | s :: steps, node => by
    rw [followAt]
    refine eachAt_ordered (fun c _ => ?_)
    by_cases h : s.accepts c = true
    · rw [if_pos h]; exact followAt_ordered steps c
    · rw [if_neg h]; exact List.Pairwise.nil

theorem Spec.Follows.length {steps : List XStep} {node t : XmlNode} {place : List Nat} (h : Follows steps node place t) : place.length = steps.length := by
  induction h with
  | here => rfl
  | child _ _ _ ih => simp [ih]

mutual
/-- A node and everything in it, with its place. -/
def insideAt : XmlNode → List (List Nat × XmlNode)
  | .element name attr children => ([], .element name attr children) :: allAt 0 children
  | .other kind data => [([], .other kind data)]
/-- Some nodes and everything in them, with its place. -/
def allAt : Nat → List XmlNode → List (List Nat × XmlNode)
  | _, [] => []
  | i, c :: cs => (insideAt c).map (fun x => (i :: x.1, x.2)) ++ allAt (i + 1) cs
end

theorem allAt_each : ∀ (cs : List XmlNode) (i : Nat), allAt i cs = eachAt insideAt i cs
  | [], _ => by rw [allAt, eachAt]
  | c :: cs, i => by rw [allAt, eachAt, allAt_each cs]

mutual
theorem insideAt_snd : ∀ node : XmlNode, (insideAt node).map (·.2) = nodeAndInside node
  | .element name attr children => by rw [insideAt, nodeAndInside, List.map_cons, allAt_snd children 0]
  | .other _ _ => rfl
theorem allAt_snd : ∀ (cs : List XmlNode) (i : Nat), (allAt i cs).map (·.2) = allInside cs
  | [], _ => rfl
  | c :: cs, i => by
    rw [allAt, allInside, List.map_append, allAt_snd cs, List.map_map, ← insideAt_snd c]
    rfl
end

mutual
theorem insideAt_ordered : ∀ node : XmlNode, InOrder (insideAt node)
  | .element name attr children => by
    rw [insideAt, InOrder, List.pairwise_cons]
    refine ⟨?_, allAt_ordered children 0⟩
    rintro ⟨p, t⟩ hp
    rw [allAt_each] at hp
    obtain ⟨k, rest, c, rfl, _, _⟩ := eachAt_mem.1 hp
    exact .nil
  | .other _ _ => List.pairwise_singleton _ _
theorem allAt_ordered : ∀ (cs : List XmlNode) (i : Nat), InOrder (allAt i cs)
  | [], _ => List.Pairwise.nil
  | c :: cs, i => by
    have h := insideAt_ordered c
    have h' := allAt_ordered cs (i + 1)
    rw [allAt_each] at h' ⊢
    rw [eachAt, InOrder, List.pairwise_append]
    refine ⟨List.pairwise_map.2 (h.imp (fun hab => .cons hab)), h', ?_⟩
    rintro ⟨p, t⟩ ha ⟨q, u⟩ hb
    obtain ⟨⟨r, t'⟩, _, he⟩ := List.mem_map.1 ha
    simp only [Prod.mk.injEq] at he
    obtain ⟨rfl, rfl⟩ := he
    obtain ⟨k, r', c', rfl, _, _⟩ := eachAt_mem.1 hb
    exact .rel (by omega)
end

theorem IsAt_of_insideAt : ∀ {place : List Nat} {node t : XmlNode}, (place, t) ∈ insideAt node ↔ IsAt node place t := by
  intro place
  induction place with
  | nil =>
    intro node t
    cases node with
    | element name attr children =>
      rw [insideAt, allAt_each, List.mem_cons, eachAt_mem]
      constructor
      · rintro (he | ⟨k, rest, c, h, _⟩)
        · cases he; exact .here
        · cases h
      · intro h; cases h; exact .inl rfl
    | other kind data =>
      rw [insideAt, List.mem_singleton]
      constructor
      · intro he; cases he; exact .here
      · intro h; cases h; rfl
  | cons i place ih =>
    intro node t
    cases node with
    | element name attr children =>
      rw [insideAt, allAt_each, List.mem_cons, eachAt_mem]
      constructor
      · rintro (he | ⟨k, rest, c, h, hc, hx⟩)
        · cases he
        · cases h
          exact .child (by rw [Nat.zero_add]; exact hc) (ih.1 hx)
      · intro h
        cases h with
        | child hc hx => exact .inr ⟨i, place, _, by rw [Nat.zero_add], hc, ih.2 hx⟩
    | other kind data =>
      rw [insideAt, List.mem_singleton]
      constructor
      · intro he; cases he
      · intro h; cases h

theorem mem_allAt {node t : XmlNode} {place : List Nat} : (place, t) ∈ allAt 0 (childrenOf node) ↔ place ≠ [] ∧ IsAt node place t := by
  rw [allAt_each, eachAt_mem]
  constructor
  · rintro ⟨k, rest, c, rfl, hc, hx⟩
    refine ⟨by simp, ?_⟩
    cases node with
    | element name attr children => exact .child (by rw [Nat.zero_add]; exact hc) (IsAt_of_insideAt.1 hx)
    | other kind data => simp [childrenOf] at hc
  · rintro ⟨h, hx⟩
    cases hx with
    | here => exact absurd rfl h
    | child hc hx => exact ⟨_, _, _, by rw [Nat.zero_add], hc, IsAt_of_insideAt.2 hx⟩

/-- What a path leads to, with the places. -/
def XPath.placed (p : XPath) (node : XmlNode) : List (List Nat × XmlNode) :=
  match p.start, p.steps with
  | .anywhere, s :: steps => (allAt 0 (childrenOf node)).flatMap (fun x => if s.accepts x.2 = true then (followAt steps x.2).map (fun y => (x.1 ++ y.1, y.2)) else [])
  | _, steps => followAt steps node

theorem placed_snd (p : XPath) (node : XmlNode) : (p.placed node).map (·.2) = p.elements node := by
  obtain ⟨start, steps, attr⟩ := p
  have h1 : (followAt steps node).map (·.2) = followSteps steps [node] := by rw [followSteps_at]; simp
  cases start with
  | here => exact h1
  | root => exact h1
  | anywhere =>
    cases steps with
    | nil => exact h1
    | cons s steps =>
      simp only [XPath.placed, XPath.elements]
      rw [followSteps_at, filter_flatMap_ite, ← allAt_snd _ 0, List.map_flatMap, List.flatMap_map]
      congr 1
      funext x
      by_cases h : s.accepts x.2 = true
      · rw [if_pos h, if_pos h, List.map_map]; rfl
      · rw [if_neg h, if_neg h]; rfl

theorem placed_mem {p : XPath} (hp : p.start = .anywhere → p.steps ≠ []) {node t : XmlNode} {place : List Nat} : (place, t) ∈ p.placed node ↔ LeadsTo p node place t := by
  obtain ⟨start, steps, attr⟩ := p
  cases start with
  | here => rw [LeadsTo, if_neg (by simp)]; exact followAt_mem
  | root => rw [LeadsTo, if_neg (by simp)]; exact followAt_mem
  | anywhere =>
    cases steps with
    | nil => exact absurd rfl (hp rfl)
    | cons s steps =>
      rw [LeadsTo, if_pos rfl]
      simp only [XPath.placed, List.mem_flatMap, List.cons.injEq]
      constructor
      · rintro ⟨⟨above, found⟩, hx, hy⟩
        obtain ⟨h1, h2⟩ := mem_allAt.1 hx
        by_cases ha : s.accepts found = true
        · rw [if_pos ha] at hy
          obtain ⟨⟨below, t'⟩, hb, he⟩ := List.mem_map.1 hy
          simp only [Prod.mk.injEq] at he
          obtain ⟨rfl, rfl⟩ := he
          exact ⟨s, steps, above, below, found, ⟨rfl, rfl⟩, rfl, h1, h2, accepts_iff.1 ha, followAt_mem.1 hb⟩
        · rw [if_neg ha] at hy; cases hy
      · rintro ⟨s', steps', above, below, found, ⟨rfl, rfl⟩, rfl, h1, h2, h3, h4⟩
        refine ⟨(above, found), mem_allAt.2 ⟨h1, h2⟩, ?_⟩
        rw [if_pos (accepts_iff.2 h3)]
        exact List.mem_map.2 ⟨(below, t), followAt_mem.2 h4, rfl⟩

theorem placeBefore_ne : ∀ {a b : List Nat}, PlaceBefore a b → a ≠ b := by
  intro a b h
  induction h with
  | nil => simp
  | rel h => intro e; cases e; omega
  | cons _ ih => intro e; cases e; exact ih rfl

theorem placed_ordered {p : XPath} (hp : p.start = .anywhere → p.steps.length = 1) (node : XmlNode) : InOrder (p.placed node) := by
  obtain ⟨start, steps, attr⟩ := p
  cases start with
  | here => exact followAt_ordered _ _
  | root => exact followAt_ordered _ _
  | anywhere =>
    cases steps with
    | nil => cases hp rfl
    | cons s steps =>
      have : steps = [] := by simpa using hp rfl
      subst this
      simp only [XPath.placed, followAt, InOrder]
      rw [List.pairwise_flatMap]
      refine ⟨fun x _ => ?_, ?_⟩
      · by_cases h : s.accepts x.2 = true
        · rw [if_pos h]; exact List.pairwise_singleton _ _
        · rw [if_neg h]; exact List.Pairwise.nil
      · refine (allAt_ordered (childrenOf node) 0).imp ?_
        intro a b hab x hx y hy
        by_cases h : s.accepts a.2 = true
        · by_cases h' : s.accepts b.2 = true
          · rw [if_pos h] at hx
            rw [if_pos h'] at hy
            simp only [List.map_cons, List.map_nil, List.append_nil, List.mem_singleton] at hx hy
            subst hx; subst hy
            exact hab
          · rw [if_neg h'] at hy; cases hy
        · rw [if_neg h] at hx; cases hx

theorem placed_nodup (p : XPath) (node : XmlNode) : (p.placed node).Pairwise (fun a b => a.1 ≠ b.1) := by
  obtain ⟨start, steps, attr⟩ := p
  have hord : ∀ {l : List (List Nat × XmlNode)}, InOrder l → l.Pairwise (fun a b => a.1 ≠ b.1) := fun h => h.imp placeBefore_ne
  cases start with
  | here => exact hord (followAt_ordered _ _)
  | root => exact hord (followAt_ordered _ _)
  | anywhere =>
    cases steps with
    | nil => exact hord (followAt_ordered _ _)
    | cons s steps =>
      simp only [XPath.placed]
      rw [List.pairwise_flatMap]
      refine ⟨fun x _ => ?_, ?_⟩
      · by_cases h : s.accepts x.2 = true
        · rw [if_pos h]
          refine List.pairwise_map.2 ((hord (followAt_ordered steps x.2)).imp ?_)
          intro a b hab he
          exact hab (List.append_cancel_left he)
        · rw [if_neg h]; exact List.Pairwise.nil
      · refine (hord (allAt_ordered (childrenOf node) 0)).imp ?_
        intro a b hab x hx y hy
        by_cases h : s.accepts a.2 = true
        · by_cases h' : s.accepts b.2 = true
          · rw [if_pos h] at hx
            rw [if_pos h'] at hy
            obtain ⟨⟨q, t⟩, hq, rfl⟩ := List.mem_map.1 hx
            obtain ⟨⟨r, u⟩, hr, rfl⟩ := List.mem_map.1 hy
            intro he
            exact hab (List.append_inj_left' he (by rw [(followAt_mem.1 hq).length, (followAt_mem.1 hr).length]))
          · rw [if_neg h'] at hy; cases hy
        · rw [if_neg h] at hx; cases hx

/-- A list of nodes with places is what it lists. -/
theorem mem_iff_get {l : List (List Nat × XmlNode)} {place : List Nat} {t : XmlNode} :
    (place, t) ∈ l ↔ ∃ i : Nat, (l.map (·.1))[i]? = some place ∧ (l.map (·.2))[i]? = some t := by
  simp only [List.getElem?_map, Option.map_eq_some_iff]
  constructor
  · intro h
    obtain ⟨i, hi⟩ := List.mem_iff_getElem?.1 h
    exact ⟨i, ⟨_, hi, rfl⟩, ⟨_, hi, rfl⟩⟩
  · rintro ⟨i, ⟨x, hx, rfl⟩, ⟨y, hy, rfl⟩⟩
    rw [hx] at hy
    cases hy
    exact List.mem_of_getElem? hx

theorem elements_lists {p : XPath} (hp : p.start = .anywhere → p.steps ≠ []) (node : XmlNode) : Lists (LeadsTo p node) (p.elements node) := by
  refine ⟨(p.placed node).map (·.1), by rw [← placed_snd]; simp, List.pairwise_map.2 (placed_nodup p node), fun place t => ?_⟩
  rw [← placed_mem hp, mem_iff_get, placed_snd]

theorem elements_in_order {p : XPath} (hp : p.start = .anywhere → p.steps.length = 1) (node : XmlNode) : ListsInOrder (LeadsTo p node) (p.elements node) := by
  refine ⟨(p.placed node).map (·.1), by rw [← placed_snd]; simp, (List.pairwise_map (f := fun x : List Nat × XmlNode => x.1) (R := PlaceBefore)).2 (placed_ordered hp node), fun place t => ?_⟩
  rw [← placed_mem (fun h e => by have := hp h; rw [e] at this; cases this), mem_iff_get, placed_snd]

/-! ### Texts -/

mutual
theorem innerText_has : ∀ node : XmlNode, HasText node (innerText node)
  | .element _ _ children => by rw [innerText]; exact .element (innerTexts_have children)
  | .other kind data => by
    cases kind with
    | text => rw [innerText]; exact .text
    | cdata => rw [innerText]; exact .cdata
    | comment => rw [innerText]; exact .comment; all_goals simp
    | instruction target => rw [innerText]; exact .instruction; all_goals simp
    | directive => rw [innerText]; exact .directive; all_goals simp
theorem innerTexts_have : ∀ nodes : List XmlNode, HaveText nodes (innerTexts nodes)
  | [] => by rw [innerTexts]; exact .nil
  | node :: nodes => by rw [innerTexts]; exact .cons (innerText_has node) (innerTexts_have nodes)
end

mutual
theorem Spec.HasText.eq {node : XmlNode} {text : Bytes} (h : HasText node text) : text = innerText node := by
  cases h with
  | element h => rw [innerText]; exact h.eq
  | text => rw [innerText]
  | cdata => rw [innerText]
  | comment => rw [innerText] <;> simp
  | instruction => rw [innerText] <;> simp
  | directive => rw [innerText] <;> simp
theorem Spec.HaveText.eq {nodes : List XmlNode} {text : Bytes} (h : HaveText nodes text) : text = innerTexts nodes := by
  cases h with
  | nil => rw [innerTexts]
  | cons h1 h2 => rw [innerTexts, ← h1.eq, ← h2.eq]
end

/-- The texts that a path leads to, with their places. -/
def XPath.placedTexts (p : XPath) (node : XmlNode) : List (List Nat × Bytes) :=
  (p.placed node).filterMap (fun x => (match p.attr with
    | none => some (innerText x.2)
    | some a => x.2.attrOf a).map (fun text => (x.1, text)))

theorem filterMap_snd {α β γ : Type} (f : β → Option γ) : ∀ l : List (α × β), (l.filterMap (fun x => (f x.2).map (fun y => (x.1, y)))).map (·.2) = (l.map (·.2)).filterMap f
  | [] => rfl
  | x :: l => by
    rw [List.filterMap_cons, List.map_cons, List.filterMap_cons]
    cases h : f x.2 with
    | none => simp only [Option.map_none]; exact filterMap_snd f l
    | some y => simp only [Option.map_some, List.map_cons]; rw [filterMap_snd f l]

theorem placedTexts_snd (p : XPath) (node : XmlNode) : (p.placedTexts node).map (·.2) = p.texts node := by
  rw [XPath.placedTexts, XPath.texts, ← placed_snd]
  cases p.attr with
  | none =>
    simp only
    rw [filterMap_snd (fun n => some (innerText n)), List.filterMap_eq_map']
  | some a => exact filterMap_snd (XmlNode.attrOf a) _

theorem placedTexts_mem {p : XPath} (hp : p.start = .anywhere → p.steps ≠ []) {node : XmlNode} {place : List Nat} {text : Bytes} :
    (place, text) ∈ p.placedTexts node ↔ LeadsToText p node place text := by
  rw [XPath.placedTexts, LeadsToText, List.mem_filterMap]
  constructor
  · rintro ⟨⟨q, t⟩, hx, he⟩
    obtain ⟨text', h1, h2⟩ := Option.map_eq_some_iff.1 he
    cases h2
    refine ⟨t, (placed_mem hp).1 hx, ?_⟩
    cases ha : p.attr with
    | none => rw [ha] at h1; cases h1; exact innerText_has t
    | some a =>
      rw [ha] at h1
      cases t with
      | element name attr children => exact ⟨name, attr, children, rfl, by rw [← attrValue_lookup]; exact h1⟩
      | other k d => cases h1
  · rintro ⟨t, hx, h⟩
    refine ⟨(place, t), (placed_mem hp).2 hx, Option.map_eq_some_iff.2 ⟨text, ?_, rfl⟩⟩
    cases ha : p.attr with
    | none => rw [ha] at h; exact congrArg some (Spec.HasText.eq h).symm
    | some a =>
      rw [ha] at h
      obtain ⟨name, attr, children, rfl, h⟩ := h
      rw [← attrValue_lookup] at h
      exact h

theorem placedTexts_pairwise {R : List Nat → List Nat → Prop} {p : XPath} {node : XmlNode} (h : (p.placed node).Pairwise (fun a b => R a.1 b.1)) :
    (p.placedTexts node).Pairwise (fun a b => R a.1 b.1) := by
  rw [XPath.placedTexts, List.pairwise_filterMap]
  refine h.imp ?_
  intro a b hab x hx y hy
  obtain ⟨_, _, rfl⟩ := Option.map_eq_some_iff.1 hx
  obtain ⟨_, _, rfl⟩ := Option.map_eq_some_iff.1 hy
  exact hab

/-! ### Record expressions -/

/-- There is an element with this chain in the nodes. -/
inductive ChainAt : List XmlNode → XmlChain → Prop where
  | here {name : String} {attr : List (String × Bytes)} {children nodes : List XmlNode} : .element name attr children ∈ nodes → ChainAt nodes [(name, attr)]
  | inside {name : String} {attr : List (String × Bytes)} {children nodes : List XmlNode} {chain : XmlChain} : .element name attr children ∈ nodes → ChainAt children chain →
      ChainAt nodes ((name, attr) :: chain)

theorem ChainAt.ne_nil {nodes : List XmlNode} {chain : XmlChain} (h : ChainAt nodes chain) : chain ≠ [] := by cases h <;> simp

theorem not_chainAt_nil {chain : XmlChain} : ¬ ChainAt [] chain := by
  intro h
  cases h with
  | here h => cases h
  | inside h _ => cases h

theorem reached_iff {Q : XmlChain → Bool} {above : XmlChain} {nodes : List XmlNode} : Reached Q above nodes ↔ ∃ chain, ChainAt nodes chain ∧ Q (above ++ chain) = true := by
  constructor
  · intro h
    induction h with
    | here hm hq => exact ⟨_, .here hm, hq⟩
    | inside hm _ ih =>
      obtain ⟨chain, h1, h2⟩ := ih
      exact ⟨_, .inside hm h1, by simpa using h2⟩
  · rintro ⟨chain, h1, h2⟩
    induction h1 generalizing above with
    | here hm => exact .here hm h2
    | inside hm _ ih => exact .inside hm (ih (by simpa using h2))

theorem stepFits_iff {s : XStep} (hs : ∀ name, .child name ∉ s.preds) {name : String} {attr : List (String × Bytes)} {children : List XmlNode} :
    stepFits s (name, attr) = true ↔ StepTo s (.element name attr children) := by
  rw [← accepts_iff]
  simp only [stepFits, XStep.accepts, Bool.and_eq_true, List.all_eq_true]
  refine and_congr Iff.rfl (forall_congr' fun q => ?_)
  refine forall_congr' fun hq => ?_
  cases q with
  | has a => simp [XPred.holds, attrValue_lookup]
  | lacks a => simp [XPred.holds, attrValue_lookup]
  | equals a v => simp [XPred.holds, attrValue_lookup]
  | child n => exact absurd hq (hs n)

theorem follows_chain {steps : List XStep} (hs : ∀ s ∈ steps, ∀ name, .child name ∉ s.preds) (hne : steps ≠ []) {node : XmlNode} :
    (∃ place t, Follows steps node place t) ↔ ∃ chain, ChainAt (childrenOf node) chain ∧ stepsFit steps chain = true := by
  induction steps generalizing node with
  | nil => exact absurd rfl hne
  | cons s steps ih =>
    have hs1 := hs s (.head _)
    have hs2 : ∀ s ∈ steps, ∀ name, .child name ∉ s.preds := fun s h => hs s (.tail _ h)
    constructor
    · rintro ⟨place, t, h⟩
      cases h with
      | @child _ _ name attr children i n _ place hc hst hf =>
        have hst' := hst
        obtain ⟨name', attr', children', rfl, _⟩ := hst'
        have hm : .element name' attr' children' ∈ children := List.mem_of_getElem? hc
        have hfit := (stepFits_iff hs1).2 hst
        cases steps with
        | nil => exact ⟨[(name', attr')], .here hm, by simp [stepsFit, hfit]⟩
        | cons s' steps =>
          obtain ⟨chain, h1, h2⟩ := (ih hs2 (by simp)).1 ⟨_, _, hf⟩
          exact ⟨(name', attr') :: chain, .inside hm h1, by simp [stepsFit, hfit, h2]⟩
    · rintro ⟨chain, h1, h2⟩
      cases node with
      | other k d =>
        simp only [childrenOf] at h1
        cases h1 with
        | here h => cases h
        | inside h _ => cases h
      | element name attr children =>
        simp only [childrenOf] at h1
        cases h1 with
        | @here name' attr' children' _ hm =>
          obtain ⟨i, hi⟩ := List.mem_iff_getElem?.1 hm
          rw [stepsFit, Bool.and_eq_true] at h2
          have hn : steps = [] := by
            cases steps with
            | nil => rfl
            | cons s' steps => cases h2.2
          subst hn
          exact ⟨_, _, .child hi ((stepFits_iff hs1).1 h2.1) .here⟩
        | @inside name' attr' children' _ chain hm h1 =>
          obtain ⟨i, hi⟩ := List.mem_iff_getElem?.1 hm
          rw [stepsFit, Bool.and_eq_true] at h2
          have hn : steps ≠ [] := by
            rintro rfl
            rw [stepsFit] at h2
            exact h1.ne_nil (List.isEmpty_iff.1 h2.2)
          obtain ⟨place, t, hf⟩ := (ih (node := .element name' attr' children') hs2 hn).2 ⟨chain, h1, h2.2⟩
          exact ⟨_, _, .child hi ((stepFits_iff hs1).1 h2.1) hf⟩

theorem stepsFit_length : ∀ {steps : List XStep} {chain : XmlChain}, stepsFit steps chain = true → chain.length = steps.length
  | [], chain, h => by rw [stepsFit] at h; rw [List.isEmpty_iff.1 h]; rfl
  | _ :: _, [], h => by cases h
  | s :: steps, e :: chain, h => by
    rw [stepsFit, Bool.and_eq_true] at h
    simp [stepsFit_length h.2]

/-- The chain of an element ends with that of an element in it. -/
theorem chain_join {node u : XmlNode} {place : List Nat} (h : IsAt node place u) {chain : XmlChain} (hc : ChainAt (childrenOf u) chain) :
    ∃ above, ChainAt (childrenOf node) (above ++ chain) := by
  induction h with
  | here => exact ⟨[], hc⟩
  | @child name attr children i c t place hi ht ih =>
    obtain ⟨above, h⟩ := ih hc
    cases c with
    | element name' attr' children' => exact ⟨(name', attr') :: above, .inside (List.mem_of_getElem? hi) h⟩
    | other k d =>
      exact absurd h not_chainAt_nil

theorem chain_split {chain : XmlChain} (hne : chain ≠ []) : ∀ {above : XmlChain} {node : XmlNode}, ChainAt (childrenOf node) (above ++ chain) →
    ∃ place u, IsAt node place u ∧ ChainAt (childrenOf u) chain
  | [], node, h => ⟨[], node, .here, h⟩
  | e :: above, node, h => by
    cases node with
    | other k d => exact absurd h not_chainAt_nil
    | element name attr children =>
      simp only [childrenOf, List.cons_append] at h
      generalize hl : above ++ chain = l at h
      cases h with
      | here hm =>
        exact absurd (List.append_eq_nil_iff.1 hl).2 hne
      | @inside name' attr' children' _ _ hm h =>
        subst hl
        obtain ⟨i, hi⟩ := List.mem_iff_getElem?.1 hm
        obtain ⟨place, u, h1, h2⟩ := chain_split hne (node := .element name' attr' children') h
        exact ⟨i :: place, u, .child hi h1, h2⟩

theorem IsAt_last {node t : XmlNode} {place : List Nat} (h : IsAt node place t) (hne : place ≠ []) :
    ∃ above u i, place = above ++ [i] ∧ IsAt node above u ∧ (childrenOf u)[i]? = some t := by
  induction h with
  | here => exact absurd rfl hne
  | @child name attr children i c t place hi ht ih =>
    cases place with
    | nil => cases ht; exact ⟨[], _, i, rfl, .here, hi⟩
    | cons j place =>
      obtain ⟨above, u, k, h1, h2, h3⟩ := ih (by simp)
      exact ⟨i :: above, u, k, by rw [h1]; rfl, .child hi h2, h3⟩

theorem IsAt_snoc {node u t : XmlNode} {place : List Nat} {i : Nat} (h : IsAt node place u) (hi : (childrenOf u)[i]? = some t) : IsAt node (place ++ [i]) t := by
  induction h with
  | @here u =>
    cases u with
    | element name attr children => exact .child hi .here
    | other k d => simp [childrenOf] at hi
  | child hc _ ih => exact .child hc (ih hi)

theorem anywhere_iff {p : XPath} (hp : p.start = .anywhere) (hne : p.steps ≠ []) {node : XmlNode} :
    (∃ place t, LeadsTo p node place t) ↔ ∃ place u, IsAt node place u ∧ ∃ q t, Follows p.steps u q t := by
  simp only [LeadsTo, if_pos hp]
  constructor
  · rintro ⟨_, t, s, steps, above, below, found, hs, rfl, h1, h2, h3, h4⟩
    obtain ⟨up, u, i, rfl, h5, h6⟩ := IsAt_last h2 h1
    rw [hs]
    cases u with
    | element name attr children => exact ⟨up, _, h5, i :: below, t, .child h6 h3 h4⟩
    | other k d => simp [childrenOf] at h6
  · rintro ⟨place, u, h1, q, t, h2⟩
    cases hs : p.steps with
    | nil => exact absurd hs hne
    | cons s steps =>
      rw [hs] at h2
      cases h2 with
      | child hi hst hf =>
        exact ⟨_, t, s, steps, place ++ [_], _, _, rfl, rfl, by simp, IsAt_snoc h1 hi, hst, hf⟩

theorem leads_iff_reached {p : XPath} (hp : AttributesOnly p) (hne : p.steps ≠ []) (doc : List XmlNode) :
    (∃ place t, LeadsTo p (.element "" [] doc) place t) ↔ Reached (chainFits p) [] doc := by
  rw [reached_iff]
  by_cases hs : p.start = .anywhere
  · rw [anywhere_iff hs hne]
    simp only [follows_chain hp hne, List.nil_append, chainFits, if_pos hs, Bool.and_eq_true, decide_eq_true_eq]
    constructor
    · rintro ⟨place, u, h1, chain, h2, h3⟩
      obtain ⟨above, h⟩ := chain_join h1 h2
      refine ⟨above ++ chain, h, ?_, ?_⟩
      · rw [← stepsFit_length h3]; simp
      · rw [← stepsFit_length h3, List.length_append, Nat.add_sub_cancel, List.drop_left]
        exact h3
    · rintro ⟨chain, h1, h2, h3⟩
      rw [← List.take_append_drop (chain.length - p.steps.length) chain] at h1
      obtain ⟨place, u, h4, h5⟩ := chain_split (node := .element "" [] doc) (by
        intro e
        rw [e] at h3
        have := stepsFit_length h3
        exact hne (List.length_eq_zero_iff.1 this.symm)) h1
      exact ⟨place, u, h4, _, h5, h3⟩
  · simp only [LeadsTo, if_neg hs]
    rw [follows_chain hp hne]
    simp only [List.nil_append, chainFits, if_neg hs, childrenOf]

end Rodb
