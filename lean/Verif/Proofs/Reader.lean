import Verif.Spec.Reader
import Verif.Proofs.Records
namespace Rodb
open Spec

/-- The reader is at the logical position `p`. -/
def BufReader.At (r : BufReader) (p : Nat) : Prop := r.offset = p + r.buffer.length ∧ r.buffer <+: r.content.drop p

theorem BufReader.At.offset {r : BufReader} {p : Nat} (h : r.At p) : getBufferedReaderOffset r = p := by
  unfold getBufferedReaderOffset
  rw [h.1]; omega

theorem BufReader.fill_content (r : BufReader) (k : Nat) : (r.fill k).content = r.content := rfl

theorem BufReader.fill_at {r : BufReader} {p : Nat} (h : r.At p) (k : Nat) : (r.fill k).At p := by
  obtain ⟨h1, t, h2⟩ := h
  have hdrop : r.content.drop r.offset = t := by
    rw [h1, ← List.drop_drop, ← h2]; simp
  refine ⟨?_, ?_⟩
  · simp only [BufReader.fill, List.length_append]; omega
  · simp only [BufReader.fill, slice, hdrop]
    rw [← h2]
    exact List.prefix_append_right_inj _ |>.mpr (List.take_prefix _ _)

theorem BufReader.fill_one {r : BufReader} {p : Nat} (h : r.At p) (he : r.buffer = []) :
    (r.fill 1).buffer = (r.content.drop p).take 1 := by
  have : r.offset = p := by rw [h.1, he]; rfl
  simp [BufReader.fill, he, slice, this]

theorem BufReader.next_spec {r : BufReader} {p : Nat} (h : r.At p) (k : Nat) :
    (r.next k).1 = (r.content.drop p).head? ∧ (r.next k).2.content = r.content ∧
    (r.next k).2.At (p + min 1 (r.content.length - p)) := by
  have key : ∀ r' : BufReader, r'.content = r.content → r'.At p → (r'.buffer = [] → r.content.drop p = []) →
      (match r'.buffer with
        | [] => ((none : Option UInt8), r')
        | b :: rest => (some b, { r' with buffer := rest })).1 = (r.content.drop p).head? ∧
      (match r'.buffer with
        | [] => ((none : Option UInt8), r')
        | b :: rest => (some b, { r' with buffer := rest })).2.content = r.content ∧
      (match r'.buffer with
        | [] => ((none : Option UInt8), r')
        | b :: rest => (some b, { r' with buffer := rest })).2.At (p + min 1 (r.content.length - p)) := by
    intro r' hc ha he
    obtain ⟨h1, t, h2⟩ := ha
    cases hb : r'.buffer with
    | nil =>
      have hd := he hb
      have hlen : r.content.length - p = 0 := by
        have := congrArg List.length hd
        simpa using this
      simp only [hd, List.head?_nil, hc, true_and, hlen, Nat.min_zero, Nat.add_zero]
      exact ⟨h1, t, h2⟩
    | cons b bs =>
      rw [hb, hc] at h2
      have hlen : 1 ≤ r.content.length - p := by
        have := congrArg List.length h2
        simp at this; omega
      simp only [hc, true_and, Nat.min_eq_left hlen]
      refine ⟨by rw [← h2]; rfl, ?_, t, ?_⟩
      · simp only; rw [h1, hb]; simp; omega
      · show bs ++ t = r.content.drop (p + 1)
        rw [← List.drop_drop, ← h2]
        rfl
  unfold BufReader.next
  simp only
  have ha := BufReader.fill_at h k
  by_cases he : (r.fill k).buffer = []
  · rw [if_pos he]
    apply key
    · rfl
    · exact BufReader.fill_at ha 1
    · intro he'
      rw [BufReader.fill_one ha he] at he'
      rw [BufReader.fill_content] at he'
      cases hd : r.content.drop p with
      | nil => rfl
      | cons a l => rw [hd] at he'; simp at he'
  · rw [if_neg he]
    exact key _ rfl ha (fun h' => absurd h' he)

theorem ItemReader.run_spec {α : Type} (m : ItemReader α) : ∀ (fuel : Nat) (sched : List Nat) (s : m.σ) (r : BufReader) (p : Nat),
    r.At p → (r.content.drop p).length < fuel →
    (m.run fuel sched s r).1 = (readItem m s (r.content.drop p)).1 ∧ (m.run fuel sched s r).2.content = r.content ∧
    (m.run fuel sched s r).2.At (p + (readItem m s (r.content.drop p)).2) := by
  intro fuel
  induction fuel with
  | zero => intro _ _ _ _ _ h; omega
  | succ fuel ih =>
    intro sched s r p hat hf
    obtain ⟨h1, h2, h3⟩ := BufReader.next_spec hat (sched.headD 0)
    simp only [ItemReader.run]
    cases hn : r.next (sched.headD 0) with
    | mk o r' =>
      rw [hn] at h1 h2 h3
      simp only at h1 h2 h3
      cases hd : r.content.drop p with
      | nil =>
        rw [hd] at h1
        have hlen : r.content.length - p = 0 := by
          have := congrArg List.length hd
          simpa using this
        rw [hlen] at h3
        simp only [List.head?_nil] at h1
        subst h1
        exact ⟨rfl, h2, h3⟩
      | cons b bs =>
        rw [hd] at h1
        simp only [List.head?_cons] at h1
        subst h1
        have hlen : 1 ≤ r.content.length - p := by
          have := congrArg List.length hd
          simp at this; omega
        rw [Nat.min_eq_left hlen] at h3
        have hbs : r'.content.drop (p + 1) = bs := by
          rw [h2, ← List.drop_drop, hd]; rfl
        simp only [readItem]
        cases hst : m.step s b with
        | inr a => exact ⟨rfl, h2, h3⟩
        | inl s' =>
          simp only
          have := ih sched.tail s' r' (p + 1) h3 (by rw [hbs]; rw [hd] at hf; simp at hf; omega)
          rw [hbs] at this
          refine ⟨this.1, this.2.1.trans h2, ?_⟩
          have h4 := this.2.2
          rw [Nat.add_assoc, Nat.add_comm 1] at h4
          exact h4

theorem ItemReader.read_spec {α : Type} (m : ItemReader α) (sched : List Nat) {r : BufReader} {p : Nat} (h : r.At p) :
    (m.read sched r).1 = firstItem m (r.content.drop p) ∧ (m.read sched r).2.content = r.content ∧
    (m.read sched r).2.At (p + (readItem m m.init (r.content.drop p)).2) :=
  m.run_spec _ sched m.init r p h (by simp; omega)

theorem seek_at {r : BufReader} {p : Nat} : ({ r with offset := p, buffer := [] } : BufReader).At p := by
  simp [BufReader.At]

theorem readItem_pos {α : Type} (m : ItemReader α) : ∀ (s : m.σ) (bytes : Bytes), bytes ≠ [] → 1 ≤ (readItem m s bytes).2 := by
  intro s bytes h
  cases bytes with
  | nil => exact absurd rfl h
  | cons b bs =>
    simp only [readItem]
    split <;> simp

theorem readItem_le {α : Type} (m : ItemReader α) : ∀ (bytes : Bytes) (s : m.σ), (readItem m s bytes).2 ≤ bytes.length := by
  intro bytes
  induction bytes with
  | nil => intro s; simp [readItem]
  | cons b bs ih =>
    intro s
    simp only [readItem]
    split
    · simp
    · have := ih (by assumption)
      simp only [List.length_cons]; omega

/-! ### CSV scan -/

theorem csvNext_spec {c : CsvInput} {r : BufReader} {p : Nat} (sched : List Nat) (h : r.At p) :
    (csvNext c sched r).2.content = r.content ∧
    (csvNext c sched r).2.At (p + (readItem c.reader c.reader.init (r.content.drop p)).2) ∧
    (csvNext c sched r).1 =
      match firstItem c.reader (r.content.drop p) with
      | .eof => .ok none
      | .bad => .error (.err "Cannot read csv data")
      | .row cells => .ok (some (csvRecord c.columns cells p)) := by
  obtain ⟨h1, h2, h3⟩ := c.reader.read_spec sched h
  unfold csvNext
  simp only [h.offset]
  cases hr : c.reader.read sched r with
  | mk a r' =>
    rw [hr] at h1 h2 h3
    simp only at h1 h2 h3
    rw [← h1]
    cases a <;> exact ⟨h2, h3, rfl⟩

theorem csvRecords_spec {c : CsvInput} (hend : c.reader.eof c.reader.init = .eof) : ∀ (fuel : Nat) (sched : Nat → List Nat) (r : BufReader) (p : Nat),
    r.At p → (r.content.drop p).length < fuel →
    ∃ rows complete, CsvRows c.reader r.content p rows complete ∧
      csvRecords c fuel sched r = rows.map (fun x => .ok (csvRecord c.columns x.2 x.1)) ++
        (if complete then [] else [.error (.err "Cannot read csv data")]) := by
  intro fuel
  induction fuel with
  | zero => intro _ _ _ _ h; omega
  | succ fuel ih =>
    intro sched r p hat hf
    obtain ⟨h1, h2, h3⟩ := csvNext_spec (c := c) (sched 0) hat
    simp only [csvRecords]
    cases hn : csvNext c (sched 0) r with
    | mk o r' =>
      rw [hn] at h1 h2 h3
      simp only at h1 h2 h3
      cases hi : firstItem c.reader (r.content.drop p) with
      | eof =>
        rw [hi] at h3
        subst h3
        exact ⟨[], true, .eof hi, rfl⟩
      | bad =>
        rw [hi] at h3
        subst h3
        exact ⟨[], false, .bad hi, rfl⟩
      | row cells =>
        rw [hi] at h3
        subst h3
        simp only
        have hne : r.content.drop p ≠ [] := by
          intro he
          rw [he] at hi
          simp only [firstItem, readItem, hend] at hi
          cases hi
        have hpos := readItem_pos c.reader c.reader.init _ hne
        have hle := readItem_le c.reader (r.content.drop p) c.reader.init
        obtain ⟨rows, complete, hrows, heq⟩ := ih (fun i => sched (i + 1)) r' _ h2 (by
          rw [h1]
          simp only [List.length_drop] at hf hle ⊢
          omega)
        rw [h1] at hrows
        refine ⟨(p, cells) :: rows, complete, .row (n := (readItem c.reader c.reader.init (r.content.drop p)).2) ?_ hrows, ?_⟩
        · rw [← hi]; rfl
        · rw [heq]; rfl

theorem CsvRows.spec {m : ItemReader CsvRead} (hend : m.eof m.init = .eof) {content : Bytes} {p : Nat} {rows : List (Nat × List Bytes)}
    {complete : Bool} (h : CsvRows m content p rows complete) :
    (rows.map (·.1)).Pairwise (· < ·) ∧ (∀ x ∈ rows, p ≤ x.1) ∧ (∀ x ∈ rows, firstItem m (content.drop x.1) = .row x.2) ∧
    (∀ x ∈ rows, x.1 < content.length) := by
  induction h with
  | eof _ => simp
  | bad _ => simp
  | @row p n cells rest complete h1 h2 ih =>
    obtain ⟨i1, i2, i3, i4⟩ := ih
    have hne : content.drop p ≠ [] := by
      intro he
      rw [he] at h1
      simp only [readItem, hend, Prod.mk.injEq, reduceCtorEq, false_and] at h1
    have hpos := readItem_pos m m.init _ hne
    rw [h1] at hpos
    simp only at hpos
    refine ⟨?_, ?_, ?_, ?_⟩
    · rw [List.map_cons, List.pairwise_cons]
      refine ⟨?_, i1⟩
      intro q hq
      obtain ⟨x, hx, rfl⟩ := List.mem_map.mp hq
      have := i2 x hx
      simp only
      omega
    · intro x hx
      rcases List.mem_cons.mp hx with rfl | hx
      · exact Nat.le_refl _
      · have := i2 x hx; omega
    · intro x hx
      rcases List.mem_cons.mp hx with rfl | hx
      · simp only [firstItem, h1]
      · exact i3 x hx
    · intro x hx
      rcases List.mem_cons.mp hx with rfl | hx
      · simp only
        apply Nat.lt_of_not_le
        intro hle
        exact hne (List.drop_eq_nil_of_le hle)
      · exact i4 x hx

theorem CsvRows.unique {m : ItemReader CsvRead} {content : Bytes} {p : Nat} {rows rows' : List (Nat × List Bytes)}
    {complete complete' : Bool} (h : CsvRows m content p rows complete) (h' : CsvRows m content p rows' complete') :
    rows = rows' ∧ complete = complete' := by
  induction h generalizing rows' with
  | eof h1 =>
    cases h' with
    | eof _ => exact ⟨rfl, rfl⟩
    | bad h2 => rw [h1] at h2; cases h2
    | row h2 _ => unfold firstItem at h1; rw [h2] at h1; cases h1
  | bad h1 =>
    cases h' with
    | eof h2 => rw [h1] at h2; cases h2
    | bad _ => exact ⟨rfl, rfl⟩
    | row h2 _ => unfold firstItem at h1; rw [h2] at h1; cases h1
  | row h1 _ ih =>
    cases h' with
    | eof h2 => unfold firstItem at h2; rw [h1] at h2; cases h2
    | bad h2 => unfold firstItem at h2; rw [h1] at h2; cases h2
    | row h2 h3 =>
      rw [h1] at h2
      cases h2
      obtain ⟨e1, e2⟩ := ih h3
      exact ⟨by rw [e1], e2⟩

theorem csvFetch_spec (c : CsvInput) (sched : List Nat) (r : BufReader) (p : Nat) :
    (csvFetch c sched r p).1 =
      match firstItem c.reader (r.content.drop p) with
      | .eof => .error (.err "Cannot read csv data: EOF")
      | .bad => .error (.err "Cannot read csv data")
      | .row cells => .ok (csvRecord c.columns cells p) := by
  unfold csvFetch setBufferedReaderOffset
  rw [if_neg (by omega)]
  simp only [Int.toNat_natCast]
  have h := c.reader.read_spec sched (seek_at (r := r) (p := p))
  cases hr : c.reader.read sched { r with offset := p, buffer := [] } with
  | mk a r' =>
    rw [hr] at h
    simp only at h
    rw [← h.1]
    cases a <;> rfl

/-- Where the rows handed out by a scan start. -/
def csvFirst (c : CsvInput) (content : Bytes) : Nat := if c.ignoreFirstRow then (readItem c.reader c.reader.init content).2 else 0

theorem csvStart_spec (c : CsvInput) (content : Bytes) (sched : List Nat) :
    (∀ r, csvStart c content sched = .ok r → r.content = content ∧ r.At (csvFirst c content)) ∧
    (∀ sched', (∃ r, csvStart c content sched = .ok r) ↔ ∃ r, csvStart c content sched' = .ok r) ∧
    (∀ e, csvStart c content sched = .error e → ∀ sched', csvStart c content sched' = .error e) := by
  have hopen : (csvOpen content).At 0 := by simp [csvOpen, BufReader.At]
  have hc : (csvOpen content).content = content := rfl
  unfold csvStart csvFirst
  cases c.ignoreFirstRow with
  | false =>
    simp only [Bool.false_eq_true, if_false, Except.ok.injEq, exists_eq', implies_true, reduceCtorEq, false_implies, and_true]
    rintro r rfl
    exact ⟨rfl, hopen⟩
  | true =>
    simp only [if_true]
    obtain ⟨h1, h2, h3⟩ := c.reader.read_spec sched hopen
    rw [hc, List.drop_zero] at h1 h3
    rw [hc] at h2
    cases hr : c.reader.read sched (csvOpen content) with
    | mk a r' =>
      rw [hr] at h1 h2 h3
      simp only at h1 h2 h3
      refine ⟨?_, ?_, ?_⟩
      · intro r he
        cases a with
        | eof => cases he
        | bad => cases he
        | row cells =>
          simp only at he
          split at he
          · cases he
          · cases he
            refine ⟨h2, ?_⟩
            rw [Nat.zero_add] at h3
            exact h3
      · intro sched'
        obtain ⟨g1, _, _⟩ := c.reader.read_spec sched' hopen
        rw [hc, List.drop_zero] at g1
        cases hr' : c.reader.read sched' (csvOpen content) with
        | mk a' r'' =>
          rw [hr'] at g1
          simp only at g1
          have : a = a' := by rw [h1, g1]
          subst this
          cases a with
          | eof => simp
          | bad => simp
          | row cells => simp only; split <;> simp
      · intro e he sched'
        obtain ⟨g1, _, _⟩ := c.reader.read_spec sched' hopen
        rw [hc, List.drop_zero] at g1
        cases hr' : c.reader.read sched' (csvOpen content) with
        | mk a' r'' =>
          rw [hr'] at g1
          simp only at g1
          have : a = a' := by rw [h1, g1]
          subst this
          cases a with
          | eof => exact he
          | bad => exact he
          | row cells =>
            simp only at he ⊢
            split at he
            · rename_i hw
              rw [if_pos hw]; exact he
            · cases he

theorem csvScan_spec {c : CsvInput} (hend : c.reader.eof c.reader.init = .eof) {content : Bytes} {sched : Nat → List Nat} {l : List (Res Rec)}
    (h : csvScan c content sched = .ok l) :
    ∃ rows complete, CsvRows c.reader content (csvFirst c content) rows complete ∧
      l = rows.map (fun x => .ok (csvRecord c.columns x.2 x.1)) ++ (if complete then [] else [.error (.err "Cannot read csv data")]) := by
  unfold csvScan at h
  cases hs : csvStart c content (sched 0) with
  | error e => rw [hs] at h; cases h
  | ok r =>
    rw [hs] at h
    cases h
    obtain ⟨hc, hat⟩ := (csvStart_spec c content (sched 0)).1 r hs
    have := csvRecords_spec hend (content.length + 1) (fun i => sched (i + 1)) r _ hat (by rw [hc]; simp; omega)
    rw [hc] at this
    exact this

/-! ### Concurrent fetches -/

/-- Has the lock. -/
def FetchState.inside {m : ItemReader CsvRead} : FetchState m → Bool
  | .waiting => false
  | .done _ => false
  | _ => true

/-- The state of a request agrees with the shared reader. -/
def FetchState.good {m : ItemReader CsvRead} (content : Bytes) (position : Nat) (r : BufReader) : FetchState m → Prop
  | .waiting => True
  | .locked => True
  | .sought => r.offset = position
  | .reading s => ∃ p, r.At p ∧ (readItem m s (content.drop p)).1 = firstItem m (content.drop position)
  | .read a => a = firstItem m (content.drop position)
  | .done a => a = firstItem m (content.drop position)

structure FetchInv {m : ItemReader CsvRead} (content : Bytes) (s : FetchSystem m) : Prop where
  file : s.reader.content = content
  good : ∀ (i : Nat) (f : Fetch m), s.fetches[i]? = some f → f.state.good content f.position s.reader
  unlocked : s.locked = false → ∀ (i : Nat) (f : Fetch m), s.fetches[i]? = some f → f.state.inside = false
  one : ∀ (i j : Nat) (f g : Fetch m), s.fetches[i]? = some f → s.fetches[j]? = some g → f.state.inside = true → g.state.inside = true → i = j

theorem FetchState.good_outside {m : ItemReader CsvRead} {content : Bytes} {position : Nat} {r r' : BufReader} {st : FetchState m}
    (h : st.good content position r) (hi : st.inside = false) : st.good content position r' := by
  cases st with
  | waiting => trivial
  | done a => exact h
  | locked => cases hi
  | sought => cases hi
  | reading s => cases hi
  | read a => cases hi

theorem FetchInv.update {m : ItemReader CsvRead} {content : Bytes} {s : FetchSystem m} (h : FetchInv content s) {i : Nat} {f : Fetch m}
    (hi : s.fetches[i]? = some f) {r : BufReader} (hr : r.content = content) {st : FetchState m} {locked : Bool}
    (hgood : st.good content f.position r)
    (hkeep : f.state.inside = true ∨ r = s.reader)
    (hin : st.inside = true → f.state.inside = true ∨ s.locked = false)
    (hlock : locked = false → st.inside = false ∧ (f.state.inside = true ∨ s.locked = false)) :
    FetchInv content { locked := locked, reader := r, fetches := s.fetches.set i { f with state := st } } := by
  obtain ⟨hlt, _⟩ := List.getElem?_eq_some_iff.mp hi
  have hget : ∀ (j : Nat) (g : Fetch m), (s.fetches.set i { f with state := st })[j]? = some g →
      (j = i ∧ g = { f with state := st }) ∨ (j ≠ i ∧ s.fetches[j]? = some g) := by
    intro j g hj
    by_cases hji : j = i
    · subst hji
      rw [List.getElem?_set_self hlt] at hj
      cases hj
      exact .inl ⟨rfl, rfl⟩
    · rw [List.getElem?_set_ne (fun e => hji e.symm)] at hj
      exact .inr ⟨hji, hj⟩
  have hothers : f.state.inside = true ∨ s.locked = false → ∀ (j : Nat) (g : Fetch m), j ≠ i → s.fetches[j]? = some g → g.state.inside = false := by
    intro hor j g hji hj
    rcases hor with h1 | h1
    · cases hg : g.state.inside with
      | false => rfl
      | true => exact absurd (h.one j i g f hj hi hg h1) hji
    · exact h.unlocked h1 j g hj
  refine ⟨hr, ?_, ?_, ?_⟩
  · intro j g hj
    rcases hget j g hj with ⟨rfl, rfl⟩ | ⟨hji, hj'⟩
    · exact hgood
    · rcases hkeep with h1 | h1
      · exact FetchState.good_outside (h.good j g hj') (hothers (.inl h1) j g hji hj')
      · subst h1; exact h.good j g hj'
  · intro hl j g hj
    obtain ⟨h1, h2⟩ := hlock hl
    rcases hget j g hj with ⟨rfl, rfl⟩ | ⟨hji, hj'⟩
    · exact h1
    · exact hothers h2 j g hji hj'
  · intro j k g g' hj hk hgi hgi'
    rcases hget j g hj with ⟨rfl, rfl⟩ | ⟨hji, hj'⟩
    · rcases hget k g' hk with ⟨rfl, rfl⟩ | ⟨hki, hk'⟩
      · rfl
      · rw [hothers (hin hgi) k g' hki hk'] at hgi'; cases hgi'
    · rcases hget k g' hk with ⟨rfl, rfl⟩ | ⟨hki, hk'⟩
      · rw [hothers (hin hgi') j g hji hj'] at hgi; cases hgi
      · exact h.one j k g g' hj' hk' hgi hgi'

theorem FetchInv.step {m : ItemReader CsvRead} {content : Bytes} {s : FetchSystem m} (h : FetchInv content s) (i ahead : Nat) :
    FetchInv content (s.step i ahead) := by
  unfold FetchSystem.step
  cases hi : s.fetches[i]? with
  | none => exact h
  | some f =>
    have hg := h.good i f hi
    have hlocked : f.state.inside = true → s.locked = true := by
      intro hin
      cases hl : s.locked with
      | true => rfl
      | false => rw [h.unlocked hl i f hi] at hin; cases hin
    simp only
    cases hst : f.state with
    | waiting =>
      simp only
      cases hl : s.locked with
      | true => simpa using h
      | false =>
        simp only [Bool.false_eq_true, if_false]
        exact h.update hi h.file trivial (.inr rfl) (fun _ => .inr hl) (fun e => by cases e)
    | locked =>
      have hin : f.state.inside = true := by rw [hst]; rfl
      exact h.update (st := .sought) (r := { s.reader with offset := f.position }) hi h.file (show ({ s.reader with offset := f.position } : BufReader).offset = f.position from rfl) (.inl hin)
        (fun _ => .inl hin) (fun e => by rw [hlocked hin] at e; cases e)
    | sought =>
      have hin : f.state.inside = true := by rw [hst]; rfl
      rw [hst] at hg
      refine h.update (st := .reading m.init) (r := { s.reader with buffer := [] }) hi h.file ⟨f.position, ?_, rfl⟩ (.inl hin) (fun _ => .inl hin) (fun e => by rw [hlocked hin] at e; cases e)
      simp only [FetchState.good] at hg
      simp [BufReader.At, hg]
    | reading st =>
      have hin : f.state.inside = true := by rw [hst]; rfl
      rw [hst] at hg
      obtain ⟨p, hat, hread⟩ := hg
      obtain ⟨h1, h2, h3⟩ := BufReader.next_spec hat ahead
      simp only
      cases hn : s.reader.next ahead with
      | mk o r =>
        rw [hn] at h1 h2 h3
        simp only at h1 h2 h3
        rw [h.file] at h1 h2 h3
        have hupd : ∀ {st' : FetchState m}, st'.good content f.position r →
            FetchInv content { locked := s.locked, reader := r, fetches := s.fetches.set i { f with state := st' } } :=
          fun hgood => h.update hi h2 hgood (.inl hin) (fun _ => .inl hin) (fun e => by rw [hlocked hin] at e; cases e)
        cases hd : content.drop p with
        | nil =>
          rw [hd] at h1 hread
          subst h1
          exact hupd hread
        | cons b bs =>
          rw [hd] at h1 hread
          subst h1
          simp only [List.head?_cons]
          simp only [readItem] at hread
          have hlen : 1 ≤ content.length - p := by
            have := congrArg List.length hd
            simp at this; omega
          rw [Nat.min_eq_left hlen] at h3
          cases hm : m.step st b with
          | inr a => rw [hm] at hread; exact hupd hread
          | inl st' =>
            rw [hm] at hread
            refine hupd ⟨p + 1, h3, ?_⟩
            rw [← List.drop_drop, hd]
            exact hread
    | read a =>
      have hin : f.state.inside = true := by rw [hst]; rfl
      rw [hst] at hg
      exact h.update hi h.file hg (.inr rfl) (fun e => by cases e) (fun _ => ⟨rfl, .inl hin⟩)
    | done a => exact h

theorem FetchInv.run {m : ItemReader CsvRead} {content : Bytes} : ∀ (sched : List (Nat × Nat)) {s : FetchSystem m}, FetchInv content s →
    FetchInv content (s.run sched) := by
  intro sched
  induction sched with
  | nil => intro s h; exact h
  | cons x sched ih => intro s h; exact ih (h.step x.1 x.2)

theorem FetchSystem.step_positions {m : ItemReader CsvRead} (s : FetchSystem m) (i ahead : Nat) :
    (s.step i ahead).fetches.map (·.position) = s.fetches.map (·.position) := by
  unfold FetchSystem.step
  cases hi : s.fetches[i]? with
  | none => rfl
  | some f =>
    have hset : ∀ st, (s.fetches.set i { f with state := st }).map (·.position) = s.fetches.map (·.position) := by
      intro st
      obtain ⟨hlt, he⟩ := List.getElem?_eq_some_iff.mp hi
      rw [List.map_set]
      apply List.ext_getElem?
      intro j
      by_cases hj : i = j
      · subst hj
        rw [List.getElem?_set_self (by simpa using hlt)]
        simp [hi]
      · rw [List.getElem?_set_ne hj]
    simp only
    cases hst : f.state with
    | waiting => simp only; split <;> simp [hset]
    | locked => exact hset _
    | sought => exact hset _
    | reading st =>
      simp only
      cases s.reader.next ahead with
      | mk o r =>
        cases o with
        | none => exact hset _
        | some b =>
          simp only
          cases m.step st b with
          | inr a => exact hset _
          | inl st' => exact hset _
    | read a => exact hset _
    | done a => rfl

theorem FetchSystem.run_positions {m : ItemReader CsvRead} : ∀ (sched : List (Nat × Nat)) (s : FetchSystem m),
    (s.run sched).fetches.map (·.position) = s.fetches.map (·.position) := by
  intro sched
  induction sched with
  | nil => intro s; rfl
  | cons x sched ih => intro s; simp only [FetchSystem.run]; rw [ih, FetchSystem.step_positions]

end Rodb

namespace Rodb
open Spec

/-! ### JSON scan -/

theorem takeWhile_spaces {spaces : Bytes} (h : Blank spaces) {b : UInt8} (hb : isJsonSpace b = false) (rest : Bytes) :
    (spaces ++ b :: rest).takeWhile isJsonSpace = spaces := by
  induction spaces with
  | nil => simp [hb]
  | cons a l ih =>
    rw [List.cons_append, List.takeWhile_cons, if_pos (h a List.mem_cons_self), ih (fun x hx => h x (List.mem_cons_of_mem _ hx))]

theorem takeWhile_blank {spaces : Bytes} (h : Blank spaces) : spaces.takeWhile isJsonSpace = spaces := by
  induction spaces with
  | nil => rfl
  | cons a l ih => rw [List.takeWhile_cons, if_pos (h a List.mem_cons_self), ih (fun x hx => h x (List.mem_cons_of_mem _ hx))]

theorem closing_not_space {b : UInt8} (h : b = 93 ∨ b = 125) : isJsonSpace b = false := by
  rcases h with rfl | rfl <;> rfl

theorem split_spaces (l : Bytes) : ∃ spaces rest, l = spaces ++ rest ∧ Blank spaces ∧ (rest = [] ∨ ∃ b t, rest = b :: t ∧ isJsonSpace b = false) ∧
    spaces = l.takeWhile isJsonSpace := by
  refine ⟨l.takeWhile isJsonSpace, l.dropWhile isJsonSpace, List.takeWhile_append_dropWhile.symm, ?_, ?_, rfl⟩
  · induction l with
    | nil => intro b hb; cases hb
    | cons a l ih =>
      intro b hb
      rw [List.takeWhile_cons] at hb
      split at hb
      · rcases List.mem_cons.mp hb with rfl | hb
        · assumption
        · exact ih b hb
      · cases hb
  · induction l with
    | nil => exact .inl rfl
    | cons a l ih =>
      rw [List.dropWhile_cons]
      split
      · exact ih
      · rename_i h
        exact .inr ⟨a, l, rfl, by simpa using h⟩

theorem jsonNext_blank {decode : JsonDecoder} {content : Bytes} {p : Nat} (h : Blank (content.drop p)) :
    ∃ q, jsonNext decode content p = (.ok none, q) := by
  unfold jsonNext
  rw [takeWhile_blank h]
  have : content.drop (p + (content.drop p).length) = [] := by
    apply List.drop_eq_nil_of_le; rw [List.length_drop]; omega
  simp only [this]
  exact ⟨_, rfl⟩

theorem jsonNext_at {decode : JsonDecoder} {content : Bytes} {p : Nat} {spaces rest : Bytes} {b : UInt8}
    (h : content.drop p = spaces ++ b :: rest) (hs : Blank spaces) (hb : isJsonSpace b = false) :
    jsonNext decode content p =
      if b = 93 ∨ b = 125 then (.ok none, p + spaces.length)
      else
        match decode (b :: rest) with
        | (.doc data, n) => (.ok (some (jsonRecord data (p + spaces.length : Nat))), p + spaces.length + n)
        | (.bad, n) => (.error (.err "Cannot read json data"), p + spaces.length + n) := by
  unfold jsonNext
  have h2 : content.drop (p + spaces.length) = b :: rest := by
    rw [← List.drop_drop, h]; simp
  rw [h, takeWhile_spaces hs hb]
  simp only [h2]
  rfl

/-- The scan along the documents. -/
theorem jsonRecords_docs {decode : JsonDecoder} {content : Bytes} {p : Nat} {bytes : Bytes} {docs : List (Nat × GoMap Value)} {tail : Bytes}
    (h : JsonDocs decode p bytes docs tail) : content.drop p = bytes → ∀ fuel, bytes.length < fuel →
    ∃ q fuel', content.drop q = tail ∧ tail.length < fuel' ∧
      jsonRecords decode content fuel p = docs.map (fun x => .ok (jsonRecord x.2 x.1)) ++ jsonRecords decode content fuel' q := by
  induction h with
  | @done p tail => intro hc fuel hf; exact ⟨p, fuel, hc, hf, rfl⟩
  | @doc p spaces text rest tail data docs h1 h2 h3 h4 ih =>
    intro hc fuel hf
    obtain ⟨b, t, rfl, hb, hb1, hb2⟩ := h2
    cases fuel with
    | zero => omega
    | succ fuel =>
      have hn : content.drop (p + spaces.length + (b :: t).length) = rest := by
        rw [← List.drop_drop, ← List.drop_drop, hc]; simp
      obtain ⟨q, fuel', e1, e2, e3⟩ := ih hn fuel (by simp at hf; omega)
      refine ⟨q, fuel', e1, e2, ?_⟩
      simp only [jsonRecords]
      rw [jsonNext_at (spaces := spaces) (b := b) (rest := t ++ rest) (by rw [hc]; simp) h1 hb, if_neg (by simp [hb1, hb2])]
      rw [List.cons_append] at h3
      rw [h3]
      simp only [e3, List.map_cons, List.cons_append]

theorem jsonRecords_end {decode : JsonDecoder} {content : Bytes} {q fuel : Nat} {tail : Bytes} (hq : content.drop q = tail)
    (hf : tail.length < fuel) :
    (Blank tail → jsonRecords decode content fuel q = []) ∧
    (StartsClosing tail → jsonRecords decode content fuel q = []) ∧
    (Malformed decode tail → jsonRecords decode content fuel q = [.error (.err "Cannot read json data")]) := by
  cases fuel with
  | zero => omega
  | succ fuel =>
    refine ⟨?_, ?_, ?_⟩
    · intro h
      rw [← hq] at h
      obtain ⟨q', h'⟩ := jsonNext_blank (decode := decode) h
      simp only [jsonRecords, h']
    · rintro ⟨spaces, b, rest, h1, h2, h3⟩
      simp only [jsonRecords]
      rw [jsonNext_at (by rw [hq, h1]) h2 (closing_not_space h3), if_pos h3]
    · rintro ⟨spaces, b, rest, h1, h2, h3, h4, h5, h6⟩
      simp only [jsonRecords]
      rw [jsonNext_at (by rw [hq, h1]) h2 h3, if_neg (by simp [h4, h5])]
      cases hd : decode (b :: rest) with
      | mk a n =>
        rw [hd] at h6
        simp only at h6
        subst h6
        rfl

/-- Every file is documents, then one of the three ends. -/
theorem jsonDocs_total {decode : JsonDecoder} (hdec : ∀ bytes data n, decode bytes = (.doc data, n) → 1 ≤ n ∧ n ≤ bytes.length) :
    ∀ (k : Nat) (bytes : Bytes), bytes.length ≤ k → ∀ p, ∃ docs tail, JsonDocs decode p bytes docs tail ∧
      (Blank tail ∨ StartsClosing tail ∨ Malformed decode tail) := by
  intro k
  induction k with
  | zero =>
    intro bytes h p
    cases bytes with
    | nil => exact ⟨[], [], .done, .inl (fun b hb => by cases hb)⟩
    | cons _ _ => simp at h
  | succ k ih =>
    intro bytes hk p
    obtain ⟨spaces, rest, h1, h2, h3, _⟩ := split_spaces bytes
    rcases h3 with rfl | ⟨b, t, rfl, hb⟩
    · rw [List.append_nil] at h1
      subst h1
      exact ⟨[], _, .done, .inl h2⟩
    · by_cases hc : b = 93 ∨ b = 125
      · exact ⟨[], _, .done, .inr (.inl ⟨spaces, b, t, h1, h2, hc⟩)⟩
      · have hc' : b ≠ 93 ∧ b ≠ 125 := by simpa [not_or] using hc
        cases hd : decode (b :: t) with
        | mk a n =>
          cases a with
          | bad => exact ⟨[], _, .done, .inr (.inr ⟨spaces, b, t, h1, h2, hb, hc'.1, hc'.2, by rw [hd]⟩)⟩
          | doc data =>
            obtain ⟨hn1, hn2⟩ := hdec _ _ _ hd
            have hsplit : b :: t = (b :: t).take n ++ (b :: t).drop n := (List.take_append_drop n _).symm
            have hlen : ((b :: t).take n).length = n := by rw [List.length_take]; omega
            have hshort : ((b :: t).drop n).length ≤ k := by
              rw [List.length_drop]
              rw [h1] at hk
              simp at hk ⊢
              omega
            obtain ⟨docs, tail, h5, h6⟩ := ih ((b :: t).drop n) hshort (p + spaces.length + ((b :: t).take n).length)
            refine ⟨(p + spaces.length, data) :: docs, tail, ?_, h6⟩
            rw [h1, hsplit, ← List.append_assoc]
            refine .doc h2 ?_ (by rw [← hsplit, hd, hlen]) h5
            cases n with
            | zero => omega
            | succ n => exact ⟨b, t.take n, rfl, hb, hc'.1, hc'.2⟩

theorem JsonDocs.spec {decode : JsonDecoder} {p : Nat} {bytes : Bytes} {docs : List (Nat × GoMap Value)} {tail : Bytes}
    (h : JsonDocs decode p bytes docs tail) : ∀ content : Bytes, content.drop p = bytes →
    (docs.map (·.1)).Pairwise (· < ·) ∧ (∀ x ∈ docs, p ≤ x.1) ∧
    (∀ x ∈ docs, jsonFetch decode content x.1 = .ok (jsonRecord x.2 x.1)) := by
  induction h with
  | done => intros; simp
  | @doc p spaces text rest tail data docs h1 h2 h3 h4 ih =>
    intro content hc
    obtain ⟨b, t, rfl, hb, hb1, hb2⟩ := h2
    obtain ⟨i1, i2, i3⟩ := ih content (by rw [← List.drop_drop, ← List.drop_drop, hc]; simp)
    refine ⟨?_, ?_, ?_⟩
    · rw [List.map_cons, List.pairwise_cons]
      refine ⟨?_, i1⟩
      intro q hq
      obtain ⟨x, hx, rfl⟩ := List.mem_map.mp hq
      have := i2 x hx
      simp only [List.length_cons] at this ⊢
      omega
    · intro x hx
      rcases List.mem_cons.mp hx with rfl | hx
      · simp
      · have := i2 x hx
        omega
    · intro x hx
      rcases List.mem_cons.mp hx with rfl | hx
      · unfold jsonFetch
        rw [if_neg (by omega)]
        simp only [Int.toNat_natCast]
        have : content.drop (p + spaces.length) = b :: t ++ rest := by
          rw [← List.drop_drop, hc]; simp
        rw [this, List.cons_append, List.dropWhile_cons, hb]
        rw [List.cons_append] at h3
        simp only [Bool.false_eq_true, if_false, h3]
      · exact i3 x hx

/-! ### Autodetection -/

theorem autodetectLoop_spec {string : Bytes → Res Value} : ∀ (cells seen : List String) (cs : List CsvColumn),
    autodetectLoop string cells seen = .ok cs ↔
      (∀ c ∈ cells, c ≠ "") ∧ cells.Nodup ∧ (∀ c ∈ cells, c ∉ seen) ∧ cs = cells.map (fun c => ⟨c, string⟩) := by
  intro cells
  induction cells with
  | nil => intro seen cs; simp [autodetectLoop, eq_comm]
  | cons name rest ih =>
    intro seen cs
    simp only [autodetectLoop]
    by_cases h1 : name = ""
    · simp [h1]
    · rw [if_neg h1]
      by_cases h2 : seen.contains name = true
      · rw [if_pos h2]
        have : name ∈ seen := by simpa using h2
        simp [this]
      · rw [if_neg h2]
        have h2' : name ∉ seen := by simpa using h2
        have ih' := ih (name :: seen)
        cases hl : autodetectLoop string rest (name :: seen) with
        | error e =>
          simp only [reduceCtorEq, false_iff]
          rintro ⟨g1, g2, g3, _⟩
          rw [List.nodup_cons] at g2
          have := (ih' (rest.map (fun c => ⟨c, string⟩))).mpr ⟨fun c hc => g1 c (List.mem_cons_of_mem _ hc), g2.2,
            fun c hc hm => by
              rcases List.mem_cons.mp hm with rfl | hm
              · exact g2.1 hc
              · exact g3 c (List.mem_cons_of_mem _ hc) hm, rfl⟩
          rw [hl] at this
          cases this
        | ok cs' =>
          obtain ⟨g1, g2, g3, g4⟩ := (ih' cs').mp hl
          subst g4
          constructor
          · intro h
            cases h
            refine ⟨?_, ?_, ?_, rfl⟩
            · intro c hc
              rcases List.mem_cons.mp hc with rfl | hc
              · exact h1
              · exact g1 c hc
            · rw [List.nodup_cons]
              exact ⟨fun hm => g3 name hm List.mem_cons_self, g2⟩
            · intro c hc
              rcases List.mem_cons.mp hc with rfl | hc
              · exact h2'
              · exact fun hm => g3 c hc (List.mem_cons_of_mem _ hm)
          · rintro ⟨_, _, _, rfl⟩
            rfl

end Rodb
