import Verif.Proofs.Text
import Verif.Model.Charset
namespace Rodb
open Spec

theorem parsePieces_ok {f : Bytes → Res Value} : ∀ {ps : List Bytes} {vs : List Value},
    parsePieces f ps = .ok vs ↔ vs.length = ps.length ∧ ∀ i (h : i < ps.length) (h' : i < vs.length), f ps[i] = .ok vs[i] := by
  intro ps
  induction ps with
  | nil =>
    intro vs
    simp only [parsePieces, Except.ok.injEq, List.length_nil]
    constructor
    · rintro rfl; exact ⟨rfl, by intro i h; simp at h⟩
    · rintro ⟨h, _⟩; exact (List.length_eq_zero_iff.mp h).symm
  | cons p ps ih =>
    intro vs
    simp only [parsePieces, bind, Except.bind]
    cases hp : f p with
    | error e =>
      simp only
      constructor
      · intro h; cases h
      · rintro ⟨h1, h2⟩
        have := h2 0 (by simp) (by rw [h1]; simp)
        simp only [List.getElem_cons_zero, hp] at this
        cases this
    | ok v =>
      simp only
      cases hps : parsePieces f ps with
      | error e =>
        simp only
        constructor
        · intro h; cases h
        · rintro ⟨h1, h2⟩
          cases vs with
          | nil => simp at h1
          | cons w vs =>
            have : parsePieces f ps = .ok vs := ih.mpr ⟨by simpa using h1, fun i h h' => by
              have := h2 (i+1) (by simp; omega) (by simp; omega)
              simpa using this⟩
            rw [hps] at this
            cases this
      | ok ws =>
        simp only [Except.ok.injEq]
        have hw := ih.mp hps
        constructor
        · rintro rfl
          refine ⟨by simp [hw.1], ?_⟩
          intro i h h'
          cases i with
          | zero => simpa using hp
          | succ i => simpa using hw.2 i (by simpa using h) (by simpa using h')
        · rintro ⟨h1, h2⟩
          cases vs with
          | nil => simp at h1
          | cons w vs =>
            have : parsePieces f ps = .ok vs := ih.mpr ⟨by simpa using h1, fun i h h' => by
              have := h2 (i+1) (by simp; omega) (by simp; omega)
              simpa using this⟩
            rw [hps] at this
            cases this
            have := h2 0 (by simp) (by simp)
            simp only [List.getElem_cons_zero, hp] at this
            cases this
            rfl

theorem parsePieces_error {f : Bytes → Res Value} {e : Fail} : ∀ {ps : List Bytes}, parsePieces f ps = .error e ↔
    ∃ pre p post, ps = pre ++ p :: post ∧ (∀ q ∈ pre, ∃ v, f q = .ok v) ∧ f p = .error e := by
  intro ps
  induction ps with
  | nil => simp [parsePieces]
  | cons p ps ih =>
    simp only [parsePieces, bind, Except.bind]
    cases hp : f p with
    | error e' =>
      simp only [Except.error.injEq]
      constructor
      · rintro rfl; exact ⟨[], p, ps, rfl, by simp, hp⟩
      · rintro ⟨pre, q, post, h1, h2, h3⟩
        cases pre with
        | nil =>
          simp only [List.nil_append, List.cons.injEq] at h1
          rw [← h1.1, hp] at h3
          exact Except.error.inj h3
        | cons x pre =>
          simp only [List.cons_append, List.cons.injEq] at h1
          obtain ⟨v, hv⟩ := h2 x List.mem_cons_self
          rw [← h1.1, hp] at hv
          cases hv
    | ok v =>
      have hiff : (∃ pre q post, p :: ps = pre ++ q :: post ∧ (∀ x ∈ pre, ∃ v, f x = .ok v) ∧ f q = .error e) ↔
          (∃ pre q post, ps = pre ++ q :: post ∧ (∀ x ∈ pre, ∃ v, f x = .ok v) ∧ f q = .error e) := by
        constructor
        · rintro ⟨pre, q, post, h1, h2, h3⟩
          cases pre with
          | nil =>
            simp only [List.nil_append, List.cons.injEq] at h1
            rw [← h1.1, hp] at h3
            cases h3
          | cons x pre =>
            simp only [List.cons_append, List.cons.injEq] at h1
            exact ⟨pre, q, post, h1.2, fun y hy => h2 y (List.mem_cons_of_mem _ hy), h3⟩
        · rintro ⟨pre, q, post, h1, h2, h3⟩
          refine ⟨p :: pre, q, post, by rw [h1]; rfl, ?_, h3⟩
          intro y hy
          rcases List.mem_cons.mp hy with rfl | hy
          · exact ⟨v, hp⟩
          · exact h2 y hy
      rw [hiff, ← ih]
      cases hps : parsePieces f ps with
      | error e' => simp
      | ok vs => simp

/-- The library functions and conversions never loop. -/
structure LibTotal (lib : ParserLib) (parsers : GoMap ParserConfig) : Prop where
  parseFloat : ∀ s, lib.parseFloat s ≠ .error .diverge
  unmarshal : ∀ s, lib.unmarshal s ≠ .error .diverge
  convert : ∀ p ∈ parsers, ∀ f, p.2 = .string (some f) → ∀ s, f s ≠ .error .diverge

theorem mapGet_none_not_mem {α : Type} : ∀ {m : GoMap α} {k : String}, mapGet m k = none → ∀ v, (k, v) ∉ m := by
  intro m
  induction m with
  | nil => intro k _ v h; cases h
  | cons p r ih =>
    obtain ⟨k', v'⟩ := p
    intro k h v hm
    simp only [mapGet] at h
    split at h
    · cases h
    · rename_i hk
      rcases List.mem_cons.mp hm with he | hm
      · cases he; exact hk rfl
      · exact ih h v hm

theorem mapGet_mem {α : Type} : ∀ {m : GoMap α} {k : String} {v : α}, mapGet m k = some v → (k, v) ∈ m := by
  intro m
  induction m with
  | nil => intro k v h; cases h
  | cons e m ih =>
    intro k v h
    obtain ⟨k', v'⟩ := e
    simp only [mapGet] at h
    split at h
    · rename_i he
      cases h
      rw [he]
      exact List.mem_cons_self
    · exact List.mem_cons_of_mem _ (ih h)

theorem parse_total {lib : ParserLib} {parsers : GoMap ParserConfig} (hlib : LibTotal lib parsers) (rank : String → Nat)
    (hrank : ∀ name d p, (name, ParserConfig.split d p) ∈ parsers → rank p < rank name) :
    ∀ (fuel : Nat) (name : String) (cfg : ParserConfig) (value : Bytes), (name, cfg) ∈ parsers → rank name < fuel →
      parse lib parsers fuel cfg value ≠ .error .diverge := by
  intro fuel
  induction fuel with
  | zero => intro _ _ _ _ h; omega
  | succ fuel ih =>
    intro name cfg value hmem hr
    cases cfg with
    | string conv =>
      simp only [parse, stringParse]
      cases conv with
      | none => simp
      | some f =>
        simp only
        have := hlib.convert _ hmem f rfl value
        cases hf : f value with
        | error e => rw [hf] at this; simpa using this
        | ok v => simp
    | integer ign =>
      simp only [parse, integerParse]
      split <;> simp
    | float s ign =>
      simp only [parse, floatParse]
      split
      · simp
      · rename_i e he
        intro h
        cases h
        exact hlib.parseFloat _ he
    | boolean t f =>
      simp only [parse, booleanParse]
      split
      · simp
      · split <;> simp
    | json => simp only [parse]; exact hlib.unmarshal value
    | split d p =>
      simp only [parse]
      cases hp : mapGet parsers p with
      | none => simp
      | some cfg' =>
        simp only
        cases hpp : parsePieces (parse lib parsers fuel cfg') (d.pieces lib value) with
        | ok vs => simp
        | error e =>
          simp only
          intro h
          cases h
          obtain ⟨pre, q, post, _, _, h3⟩ := parsePieces_error.mp hpp
          have hlt := hrank name d p hmem
          exact ih p cfg' q (mapGet_mem hp) (by omega) h3

/-- More fuel does not change an answer. -/
theorem parse_mono {lib : ParserLib} {parsers : GoMap ParserConfig} : ∀ (fuel : Nat) (cfg : ParserConfig) (value : Bytes),
    parse lib parsers fuel cfg value ≠ .error .diverge → parse lib parsers (fuel + 1) cfg value = parse lib parsers fuel cfg value := by
  intro fuel
  induction fuel with
  | zero =>
    intro cfg value h
    cases cfg <;> first | rfl | exact absurd rfl h
  | succ fuel ih =>
    intro cfg value h
    cases cfg with
    | split d p =>
      simp only [parse] at h ⊢
      cases hp : mapGet parsers p with
      | none => rfl
      | some cfg' =>
        simp only [hp] at h
        simp only
        have hkey : ∀ ps : List Bytes, parsePieces (parse lib parsers fuel cfg') ps ≠ .error .diverge →
            parsePieces (parse lib parsers (fuel + 1) cfg') ps = parsePieces (parse lib parsers fuel cfg') ps := by
          intro ps
          induction ps with
          | nil => intro _; rfl
          | cons q ps ihp =>
            intro hps
            simp only [parsePieces, bind, Except.bind] at hps ⊢
            have hq : parse lib parsers fuel cfg' q ≠ .error .diverge := by
              intro hq
              rw [hq] at hps
              exact hps rfl
            rw [ih cfg' q hq]
            cases hv : parse lib parsers fuel cfg' q with
            | error e => rfl
            | ok v =>
              rw [hv] at hps
              simp only at hps ⊢
              have : parsePieces (parse lib parsers fuel cfg') ps ≠ .error .diverge := by
                intro hh
                rw [hh] at hps
                exact hps rfl
              rw [ihp this]
        rw [hkey]
        intro hh
        rw [hh] at h
        exact h rfl
    | _ => rfl

/-! ### Shared decoder -/

/-- The chunks still to be fed. -/
def feeds : List DecodeOp → List Bytes
  | [] => []
  | .reset :: rest => feeds rest
  | .feed c :: rest => c :: feeds rest

theorem feeds_conversion (chunks : List Bytes) : feeds (conversion chunks) = chunks := by
  have : ∀ l : List Bytes, feeds (l.map .feed) = l := by
    intro l
    induction l with
    | nil => rfl
    | cons c l ih => simp [feeds, ih]
  simp [conversion, feeds, this]

theorem decodeRun_invariant {σ : Type} {d : Decoder σ} {f : Bytes → Bytes} (hf : ∀ s b, (d.step s b).2 = f b) :
    ∀ (schedule : List Nat) (shared : σ) (cs : List Conversion),
      (decodeRun d schedule shared cs).map (fun c => c.out ++ (feeds c.ops).flatMap f) = cs.map (fun c => c.out ++ (feeds c.ops).flatMap f) := by
  intro schedule
  induction schedule with
  | nil => intro _ _; rfl
  | cons i schedule ih =>
    intro shared cs
    simp only [decodeRun]
    split
    · exact ih _ _
    · rename_i c hc
      rw [ih]
      have hstep : (fun c => c.out ++ (feeds c.ops).flatMap f) (decodeStep d shared c).2 = c.out ++ (feeds c.ops).flatMap f := by
        unfold decodeStep
        split
        · rfl
        · rename_i ops ho
          simp [ho, feeds]
        · rename_i ch ops ho
          simp [ho, feeds, hf]
      simp only at hstep
      rw [List.map_set, hstep]
      apply List.ext_getElem?
      intro j
      by_cases hj : i = j
      · subst hj
        obtain ⟨hlt, rfl⟩ := List.getElem?_eq_some_iff.mp hc
        simp [hlt]
      · rw [List.getElem?_set_ne hj]

theorem decodeAlone_stateless {σ : Type} {d : Decoder σ} {f : Bytes → Bytes} (hf : ∀ s b, (d.step s b).2 = f b) :
    ∀ (chunks : List Bytes) (s : σ), decodeAlone d s chunks = chunks.flatMap f := by
  intro chunks
  induction chunks with
  | nil => intro s; rfl
  | cons c chunks ih => intro s; simp [decodeAlone, hf, ih]

theorem decodeRun_feeds {σ : Type} {d : Decoder σ} {i : Nat} : ∀ (chunks : List Bytes) (s : σ) (out : Bytes) (cs : List Conversion),
    cs[i]? = some { ops := chunks.map .feed, out := out } →
    decodeRun d (List.replicate chunks.length i) s cs = cs.set i { ops := [], out := out ++ decodeAlone d s chunks } := by
  intro chunks
  induction chunks with
  | nil =>
    intro s out cs h
    obtain ⟨hlt, he⟩ := List.getElem?_eq_some_iff.mp h
    simp only [List.length_nil, List.replicate_zero, decodeRun, decodeAlone, List.append_nil]
    apply List.ext_getElem?
    intro j
    by_cases hj : i = j
    · subst hj; simpa [hlt] using he
    · rw [List.getElem?_set_ne hj]
  | cons c chunks ih =>
    intro s out cs h
    obtain ⟨hlt, he⟩ := List.getElem?_eq_some_iff.mp h
    simp only [List.length_cons, List.replicate_succ, decodeRun, h, List.map_cons, decodeStep]
    rw [ih (d.step s c).1 (out ++ (d.step s c).2) _ (by simp [hlt])]
    simp [decodeAlone]

theorem decodeRun_alone {σ : Type} {d : Decoder σ} {i : Nat} (chunks : List Bytes) (s : σ) (cs : List Conversion)
    (h : cs[i]? = some { ops := conversion chunks, out := [] }) :
    decodeRun d (List.replicate (chunks.length + 1) i) s cs = cs.set i { ops := [], out := decodeAlone d d.init chunks } := by
  obtain ⟨hlt, he⟩ := List.getElem?_eq_some_iff.mp h
  simp only [List.replicate_succ, decodeRun, h, conversion, decodeStep]
  rw [decodeRun_feeds chunks _ [] _ (by simp [hlt])]
  simp

end Rodb
