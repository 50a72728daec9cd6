import Verif.Model.JsonFetch
/-
  C38 for JSON inputs: concurrent fetches do not mix documents.
-/
namespace Rodb

/-- Has this request the lock? -/
def JsonFetchState.inside : JsonFetchState → Bool
  | .waiting => false
  | .done _ => false
  | _ => true

/-- What is known of a request, when the file is at this offset. -/
def JsonFetch.Good (decode : JsonDecoder) (content : Bytes) (offset : Nat) (f : JsonFetch) : Prop :=
  match f.state with
  | .waiting => True
  | .locked => True
  | .sought => offset = f.position
  | .reading got => content.drop f.position = got ++ content.drop offset
  | .answered a => a = jsonFetch decode content f.position
  | .done a => a = jsonFetch decode content f.position

structure JsonFetchInv (decode : JsonDecoder) (content : Bytes) (s : JsonFetchSystem) : Prop where
  good : ∀ (i : Nat) (f : JsonFetch), s.fetches[i]? = some f → f.Good decode content s.offset
  free : s.locked = false → ∀ (i : Nat) (f : JsonFetch), s.fetches[i]? = some f → f.state.inside = false
  one : ∀ (i j : Nat) (f g : JsonFetch), s.fetches[i]? = some f → s.fetches[j]? = some g → f.state.inside = true → g.state.inside = true → i = j

theorem jsonFetch_result (decode : JsonDecoder) (content : Bytes) (p : Nat) :
    jsonFetch decode content p = jsonGetResult decode p (content.drop p) := by
  rw [jsonFetch, jsonGetResult, if_neg (by omega), Int.toNat_natCast]
  cases decode ((content.drop p).dropWhile isJsonSpace) with
  | mk a n => cases a <;> rfl

/-- The offset matters only to the request that has the lock. -/
theorem JsonFetch.Good.outside {decode : JsonDecoder} {content : Bytes} {o o' : Nat} {f : JsonFetch} (h : f.Good decode content o)
    (hout : f.state.inside = false) : f.Good decode content o' := by
  unfold JsonFetch.Good at *
  split <;> simp_all [JsonFetchState.inside]

theorem getElem?_put {l : List JsonFetch} {i j : Nat} {g h : JsonFetch} (hj : (l.set i g)[j]? = some h) :
    (j = i ∧ h = g) ∨ (j ≠ i ∧ l[j]? = some h) := by
  rw [List.getElem?_set] at hj
  split at hj
  · rename_i heq
    split at hj
    · exact .inl ⟨heq.symm, (Option.some.inj hj).symm⟩
    · cases hj
  · rename_i hne
    exact .inr ⟨fun h => hne h.symm, hj⟩

/-- A step of the request `i`, which has the lock or takes it. -/
theorem jsonFetchInv_put {decode : JsonDecoder} {content : Bytes} {s : JsonFetchSystem} {i : Nat} {f : JsonFetch} {state : JsonFetchState}
    {locked : Bool} {offset : Nat} (hi : JsonFetchInv decode content s) (hf : s.fetches[i]? = some f)
    (hin : f.state.inside = true ∨ s.locked = false)
    (hgood : ({ f with state := state } : JsonFetch).Good decode content offset) (hfree : locked = false → state.inside = false) :
    JsonFetchInv decode content { s.put i f state with locked := locked, offset := offset } := by
  have hothers : ∀ j g, j ≠ i → s.fetches[j]? = some g → g.state.inside = false := by
    intro j g hj hg
    rcases hin with hin | hin
    · cases h : g.state.inside with
      | false => rfl
      | true => exact absurd (hi.one j i g f hg hf h hin) hj
    · exact hi.free hin j g hg
  refine ⟨fun j g hg => ?_, fun hl j g hg => ?_, fun j k g g' hg hg' h1 h2 => ?_⟩
  · rcases getElem?_put hg with ⟨rfl, rfl⟩ | ⟨hj, hg⟩
    · exact hgood
    · exact (hi.good j g hg).outside (hothers j g hj hg)
  · rcases getElem?_put hg with ⟨rfl, rfl⟩ | ⟨hj, hg⟩
    · exact hfree hl
    · exact hothers j g hj hg
  · rcases getElem?_put hg with ⟨hj, _⟩ | ⟨hj, hg⟩
    · rcases getElem?_put hg' with ⟨hk, _⟩ | ⟨hk, hg'⟩
      · rw [hj, hk]
      · rw [hothers k g' hk hg'] at h2; cases h2
    · rw [hothers j g hj hg] at h1; cases h1

theorem inside_of {f : JsonFetch} {state : JsonFetchState} (h : f.state = state) (hin : state.inside = true) : f.state.inside = true := by
  rw [h]; exact hin

theorem jsonFetchInv_step {decode : JsonDecoder} {content : Bytes} {s t : JsonFetchSystem} (h : JsonFetchSystem.Step decode content s t)
    (hi : JsonFetchInv decode content s) : JsonFetchInv decode content t := by
  have held : ∀ {i : Nat} {f : JsonFetch}, s.fetches[i]? = some f → f.state.inside = true → s.locked = true := by
    intro i f hf hin
    cases hl : s.locked with
    | true => rfl
    | false => rw [hi.free hl i f hf] at hin; cases hin
  cases h with
  | lock hf hst hl => exact jsonFetchInv_put hi hf (.inr hl) trivial (fun h => by cases h)
  | seek hf hst =>
    have hin := inside_of hst rfl
    exact jsonFetchInv_put (locked := s.locked) hi hf (.inl hin) rfl (fun h => by rw [held hf hin] at h; cases h)
  | start hf hst =>
    have hin := inside_of hst rfl
    have hg := hi.good _ _ hf
    simp only [JsonFetch.Good, hst] at hg
    refine jsonFetchInv_put (locked := s.locked) (offset := s.offset) hi hf (.inl hin) ?_ (fun h => by rw [held hf hin] at h; cases h)
    simp [JsonFetch.Good, hg]
  | read n hf hst =>
    have hin := inside_of hst rfl
    have hg := hi.good _ _ hf
    simp only [JsonFetch.Good, hst] at hg
    refine jsonFetchInv_put (locked := s.locked) hi hf (.inl hin) ?_ (fun h => by rw [held hf hin] at h; cases h)
    simp only [JsonFetch.Good]
    rw [hg, List.append_assoc]
    congr 1
    rw [← List.drop_drop, List.length_take]
    by_cases hle : n + 1 ≤ (content.drop s.offset).length
    · rw [Nat.min_eq_left hle, List.take_append_drop]
    · rw [Nat.min_eq_right (by omega), List.take_of_length_le (by omega), List.drop_length, List.append_nil]
  | enough hf hst hmore =>
    have hin := inside_of hst rfl
    have hg := hi.good _ _ hf
    simp only [JsonFetch.Good, hst] at hg
    refine jsonFetchInv_put (locked := s.locked) (offset := s.offset) hi hf (.inl hin) ?_ (fun h => by rw [held hf hin] at h; cases h)
    simp only [JsonFetch.Good]
    rw [jsonFetch_result, hg, hmore]
  | eof hf hst hend =>
    have hin := inside_of hst rfl
    have hg := hi.good _ _ hf
    simp only [JsonFetch.Good, hst] at hg
    refine jsonFetchInv_put (locked := s.locked) (offset := s.offset) hi hf (.inl hin) ?_ (fun h => by rw [held hf hin] at h; cases h)
    simp only [JsonFetch.Good]
    rw [jsonFetch_result, hg, hend, List.append_nil]
  | unlock hf hst =>
    have hin := inside_of hst rfl
    have hg := hi.good _ _ hf
    simp only [JsonFetch.Good, hst] at hg
    exact jsonFetchInv_put (offset := s.offset) hi hf (.inl hin) hg (fun _ => rfl)

theorem jsonFetch_positions {decode : JsonDecoder} {content : Bytes} {s t : JsonFetchSystem} (h : JsonFetchSystem.Run decode content s t) :
    t.fetches.map (·.position) = s.fetches.map (·.position) := by
  have put : ∀ (l : List JsonFetch) (i : Nat) (f : JsonFetch) (state : JsonFetchState), l[i]? = some f →
      (l.set i { f with state := state }).map (·.position) = l.map (·.position) := by
    intro l i f state hf
    apply List.ext_getElem?
    intro j
    simp only [List.map_set, List.getElem?_set, List.getElem?_map]
    split
    · rename_i heq
      subst heq
      simp only [List.length_map, hf, Option.map_some]
      rw [if_pos (lt_of_getElem? hf)]
    · rfl
  induction h with
  | refl => rfl
  | step _ hs ih =>
    rw [← ih]
    cases hs <;> exact put _ _ _ _ (by assumption)
where
  lt_of_getElem? {l : List JsonFetch} {i : Nat} {f : JsonFetch} (h : l[i]? = some f) : i < l.length := by
    rw [List.getElem?_eq_some_iff] at h; exact h.1

/-- The requests before they start. -/
def jsonFetchesAt (positions : List Nat) (offset : Nat) : JsonFetchSystem :=
  { locked := false, offset := offset, fetches := positions.map (fun p => ⟨p, .waiting⟩) }

/-- **C38** For JSON inputs: any number of requests fetch records concurrently, in any interleaving of their steps, the decoder reading any number of
bytes at a time; the shared file may be at any offset at first. A request that got its answer got the record at the position it asked for, or
the error it would have got if it had been alone. -/
theorem C38_concurrent_json_fetches (decode : JsonDecoder) (content : Bytes) (positions : List Nat) (offset : Nat) (s : JsonFetchSystem)
    (h : JsonFetchSystem.Run decode content (jsonFetchesAt positions offset) s)
    (i : Nat) (f : JsonFetch) (a : Res Rec) (hf : s.fetches[i]? = some f) (hdone : f.state = .done a) :
    ∃ p, positions[i]? = some p ∧ a = jsonFetch decode content p := by
  have hw : ∀ (i : Nat) (f : JsonFetch), (positions.map (fun p => (⟨p, .waiting⟩ : JsonFetch)))[i]? = some f → f.state = .waiting := by
    intro i f h
    rw [List.getElem?_map] at h
    cases hp : positions[i]? with
    | none => rw [hp] at h; cases h
    | some p => rw [hp] at h; cases h; rfl
  have hstart : JsonFetchInv decode content (jsonFetchesAt positions offset) :=
    ⟨fun i f h => by simp [JsonFetch.Good, hw i f h], fun _ i f h => by rw [hw i f h]; rfl,
     fun i j f g h1 _ h3 => by rw [hw i f h1] at h3; cases h3⟩
  have hinv : JsonFetchInv decode content s := by
    clear hf hdone
    induction h with
    | refl => exact hstart
    | step _ hs ih => exact jsonFetchInv_step hs ih
  have hg := hinv.good i f hf
  simp only [JsonFetch.Good, hdone] at hg
  have hp := congrArg (fun l => l[i]?) (jsonFetch_positions h)
  simp only [jsonFetchesAt, List.map_map, List.getElem?_map, hf, Option.map_some] at hp
  refine ⟨f.position, ?_, hg⟩
  cases hp' : positions[i]? with
  | none => rw [hp'] at hp; cases hp
  | some p => rw [hp'] at hp; simp at hp; rw [hp]

namespace JsonFetchExample

/-- A decoder that takes everything up to the first closing brace for a document with one property. -/
def decode : JsonDecoder := fun s => (.doc [("text", .str (s.takeWhile (fun b => b ≠ 125)))], 0)

/-- `{1} {2}` -/
def content : Bytes := [123, 49, 125, 32, 123, 50, 125]

/-- Two requests, the second starting when the first is done: a run to its end. The hypotheses of `C38_concurrent_json_fetches` are met. -/
example : ∃ s f, JsonFetchSystem.Run decode content (jsonFetchesAt [4, 0] 3) s ∧ s.fetches[1]? = some f ∧
    f.state = .done (.ok (jsonRecord [("text", .str [123, 49])] 0)) := by
  refine ⟨_, _, .step (.step (.step (.step (.step (.step (.step (.step (.step (.step (.step (.step .refl
      (.lock (i := 0) rfl rfl rfl)) (.seek (i := 0) rfl rfl)) (.start (i := 0) rfl rfl)) (.read (i := 0) 7 rfl rfl)) (.eof (i := 0) rfl rfl rfl))
      (.unlock (i := 0) rfl rfl))
      (.lock (i := 1) rfl rfl rfl)) (.seek (i := 1) rfl rfl)) (.start (i := 1) rfl rfl)) (.read (i := 1) 2 rfl rfl))
      (.enough (i := 1) rfl rfl (fun more => rfl))) (.unlock (i := 1) rfl rfl), rfl, rfl⟩

end JsonFetchExample

open JsonFetchExample in
/-- **C38** Without the lock, documents would mix: two requests are inside, and the second, which asked for position 4, seeks before the first, which
asked for position 0, has read anything. The first gets the document of the second, as a record of position 0. -/
theorem C38_json_lock_is_needed : ∃ s f, JsonFetchSystem.Run decode content { locked := true, offset := 0, fetches := [⟨0, .locked⟩, ⟨4, .locked⟩] } s ∧
    s.fetches[0]? = some f ∧ f.state = .done (.ok (jsonRecord [("text", .str [123, 50])] 0)) := by
  refine ⟨_, _, .step (.step (.step (.step (.step (.step .refl (.seek (i := 0) rfl rfl)) (.seek (i := 1) rfl rfl)) (.start (i := 0) rfl rfl))
    (.read (i := 0) 10 rfl rfl)) (.eof (i := 0) rfl rfl rfl)) (.unlock (i := 0) rfl rfl), rfl, rfl⟩

end Rodb
