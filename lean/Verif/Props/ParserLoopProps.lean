import Verif.Props.ParserProps
/-
  C34, exactly: which parsers end, and which never do.
-/
namespace Rodb
open Spec

/-- Following the names of parsers that split parsers hand their pieces to, one comes to an end: to a parser that does not split, or to a name that is not there. -/
inductive Spec.ComesToEnd (parsers : GoMap ParserConfig) : String → Prop where
  | missing {name : String} : mapGet parsers name = none → ComesToEnd parsers name
  | plain {name : String} {p : ParserConfig} : mapGet parsers name = some p → (∀ d inner, p ≠ .split d inner) → ComesToEnd parsers name
  | next {name : String} {d : Delimiter} {inner : String} : mapGet parsers name = some (.split d inner) → ComesToEnd parsers inner → ComesToEnd parsers name

/-- Every text has a piece, maybe an empty one: so it is for every delimiter that is not empty. -/
def Spec.AlwaysPieces (lib : ParserLib) (parsers : GoMap ParserConfig) : Prop :=
  ∀ name d inner, mapGet parsers name = some (.split d inner) → ∀ value, d.pieces lib value ≠ []

theorem alwaysPieces_of_delimiters (lib : ParserLib) {parsers : GoMap ParserConfig}
    (h : ∀ name d inner, mapGet parsers name = some (.split d inner) → ∃ text, text ≠ [] ∧ d = .literal text) : AlwaysPieces lib parsers := by
  intro name d inner hp value
  obtain ⟨text, hne, rfl⟩ := h name d inner hp
  cases text with
  | nil => exact absurd rfl hne
  | cons b rest => exact splitAux_ne_nil (b :: rest) value 0 []

theorem parse_plain_ends {lib : ParserLib} {parsers : GoMap ParserConfig} (hlib : LibTotal lib parsers) {name : String} {p : ParserConfig} (hp : mapGet parsers name = some p)
    (hplain : ∀ d inner, p ≠ .split d inner) (depth : Nat) (value : Bytes) : parse lib parsers depth p value ≠ .error .diverge := by
  have hmem := mapGet_mem hp
  have h : parse lib [(name, p)] 1 p value ≠ .error .diverge := by
    refine parse_total (rank := fun _ => 0) ⟨hlib.parseFloat, hlib.unmarshal, fun q hq f hf => hlib.convert q ?_ f hf⟩ ?_ 1 name p value (by simp) (by simp)
    · rw [List.mem_singleton] at hq
      rw [hq]; exact hmem
    · intro n d inner hm
      rw [List.mem_singleton] at hm
      cases hm
      exact absurd rfl (hplain d inner)
  cases p with
  | split d inner => exact absurd rfl (hplain d inner)
  | _ => simpa [parse] using h

theorem parsePieces_diverge {f : Bytes → Res Value} {pieces : List Bytes} (h : parsePieces f pieces = .error .diverge) : ∃ p ∈ pieces, f p = .error .diverge := by
  induction pieces with
  | nil => cases h
  | cons p rest ih =>
    simp only [parsePieces, bind, Except.bind] at h
    cases hp : f p with
    | error e => rw [hp] at h; cases h; exact ⟨p, by simp, hp⟩
    | ok v =>
      rw [hp] at h
      simp only at h
      cases hr : parsePieces f rest with
      | error e =>
        rw [hr] at h; cases h
        obtain ⟨q, hq, hf⟩ := ih hr
        exact ⟨q, by simp [hq], hf⟩
      | ok vs => rw [hr] at h; cases h

/-- **C34**, exactly: if every text has a piece for all the delimiters, then parsing with a parser ends for all texts, within some depth of calls, if and only if following the names of
parsers comes to an end; otherwise it ends for no text at all. Missing for the full C34: the second case, which the validation accepts, see `C34_false`. -/
theorem C34_exactly_partial {lib : ParserLib} {parsers : GoMap ParserConfig} (hlib : LibTotal lib parsers) (hpieces : AlwaysPieces lib parsers) {name : String} {p : ParserConfig}
    (hp : mapGet parsers name = some p) :
    ((∃ depth : Nat, ∀ value, parse lib parsers depth p value ≠ .error .diverge) ↔ ComesToEnd parsers name) ∧
    (¬ ComesToEnd parsers name → ∀ (depth : Nat) value, parse lib parsers depth p value = .error .diverge) := by
  have hloop : ∀ (depth : Nat) (name : String) (p : ParserConfig), mapGet parsers name = some p → ¬ ComesToEnd parsers name → ∀ value, parse lib parsers depth p value = .error .diverge := by
    intro depth
    induction depth with
    | zero =>
      intro name p hp hno value
      cases p with
      | split d inner => rfl
      | _ => exact absurd (.plain hp (by intro d inner h; cases h)) hno
    | succ depth ih =>
      intro name p hp hno value
      cases p with
      | split d inner =>
        have hno' : ¬ ComesToEnd parsers inner := fun h => hno (.next hp h)
        cases hi : mapGet parsers inner with
        | none => exact absurd (.missing hi) hno'
        | some q =>
          cases hd : d.pieces lib value with
          | nil => exact absurd hd (hpieces name d inner hp value)
          | cons piece rest => simp only [parse, hi, hd, parsePieces, bind, Except.bind, ih inner q hi hno' piece]
      | _ => exact absurd (.plain hp (by intro d inner h; cases h)) hno
  have hends : ∀ name, ComesToEnd parsers name → ∀ p, mapGet parsers name = some p → ∃ depth : Nat, ∀ value, parse lib parsers depth p value ≠ .error .diverge := by
    intro name h
    induction h with
    | missing h => intro p hp; rw [h] at hp; cases hp
    | plain h hplain => intro p hp; rw [h] at hp; cases hp; exact ⟨0, fun value => parse_plain_ends hlib h hplain 0 value⟩
    | @next name d inner h hnext ih =>
      intro p hp
      rw [h] at hp; cases hp
      cases hi : mapGet parsers inner with
      | none => exact ⟨1, fun value hc => by simp only [parse, hi] at hc; cases hc⟩
      | some q =>
        obtain ⟨depth, hd⟩ := ih q hi
        refine ⟨depth + 1, fun value hc => ?_⟩
        simp only [parse, hi] at hc
        cases hpp : parsePieces (parse lib parsers depth q) (d.pieces lib value) with
        | ok vs => rw [hpp] at hc; cases hc
        | error e =>
          rw [hpp] at hc; cases hc
          obtain ⟨piece, _, hf⟩ := parsePieces_diverge hpp
          exact hd piece hf
  refine ⟨⟨fun ⟨depth, h⟩ => Classical.byContradiction fun hno => h [] (hloop depth name p hp hno []), fun h => hends name h p hp⟩, fun hno depth => hloop depth name p hp hno⟩

namespace ParserLoopExample

/-- Lists of lists of texts, and two split parsers that name each other. -/
def parsers : GoMap ParserConfig :=
  [("text", .string none), ("list", .split (.literal [44]) "text"), ("lists", .split (.literal [59]) "list"), ("a", .split (.literal [44]) "b"), ("b", .split (.literal [59]) "a")]

theorem pieces : AlwaysPieces ParserExample.lib parsers := by
  refine alwaysPieces_of_delimiters _ fun name d inner h => ?_
  have := mapGet_mem h
  simp only [parsers, List.mem_cons, Prod.mk.injEq, List.not_mem_nil, or_false] at this
  rcases this with ⟨_, h⟩ | ⟨_, h⟩ | ⟨_, h⟩ | ⟨_, h⟩ | ⟨_, h⟩ <;> cases h <;> exact ⟨_, by simp, rfl⟩

theorem total : LibTotal ParserExample.lib parsers := by
  refine ⟨by intro s; simp [ParserExample.lib], by intro s; simp [ParserExample.lib], ?_⟩
  intro p hp f hf
  simp only [parsers, List.mem_cons, List.not_mem_nil, or_false] at hp
  rcases hp with rfl | rfl | rfl | rfl | rfl <;> cases hf

theorem ends : ComesToEnd parsers "lists" :=
  .next (d := .literal [59]) (inner := "list") rfl (.next (d := .literal [44]) (inner := "text") rfl (.plain (p := .string none) rfl (by intro d inner h; cases h)))

theorem loops : ¬ ComesToEnd parsers "a" := by
  have key : ∀ name, ComesToEnd parsers name → name ≠ "a" ∧ name ≠ "b" := by
    intro name h
    induction h with
    | missing h => exact ⟨(fun hn => by subst hn; cases h), (fun hn => by subst hn; cases h)⟩
    | plain h hplain => exact ⟨(fun hn => by subst hn; cases h; exact hplain _ _ rfl), (fun hn => by subst hn; cases h; exact hplain _ _ rfl)⟩
    | next h _ ih => exact ⟨(fun hn => by subst hn; cases h; exact ih.2 rfl), (fun hn => by subst hn; cases h; exact ih.1 rfl)⟩
  exact fun h => (key _ h).1 rfl

end ParserLoopExample

/-- The hypotheses of `C34_exactly_partial` are met, in both cases. -/
example : ∃ depth : Nat, ∀ value, parse ParserExample.lib ParserLoopExample.parsers depth (.split (.literal [59]) "list") value ≠ .error .diverge :=
  (C34_exactly_partial ParserLoopExample.total ParserLoopExample.pieces (name := "lists") rfl).1.2 ParserLoopExample.ends

example : ∀ (depth : Nat) value, parse ParserExample.lib ParserLoopExample.parsers depth (.split (.literal [44]) "b") value = .error .diverge :=
  (C34_exactly_partial ParserLoopExample.total ParserLoopExample.pieces (name := "a") rfl).2 ParserLoopExample.loops

end Rodb
