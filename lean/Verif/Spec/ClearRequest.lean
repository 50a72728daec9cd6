import Verif.Spec.RelatedData
import Verif.Spec.Output
import Verif.Spec.Refused
/-
  Requests with an answer that the configuration and the data settle.
-/
namespace Rodb.Spec

/-- A request with these parameters, for this output: the texts of the parameters are values of their parsers, no two of them are on the same property of the same index, the indexes can
answer them, limit and offset are numbers in range, and the relationships fit the data (`Fits`). -/
def ClearRequest (p : ParsedConfig) (env : OutputEnv) (asked : String → List String) (w : World) (params : GoMap Bytes) : OutputDecl → Prop
  | .graphql _ => True
  | .array _ d =>
    (∀ q ∈ filteredValues p d.parameters, q ∈ asked d.input) ∧ Fits p asked w (depthOf d.relationships) d.input d.relationships ∧
    ∃ (conditions : List Condition) (limit offset : Nat),
      Reads env (givenParameters (d.parameters.map (fun e => (e.1, completedParameter e.2))) params) conditions ∧
      (conditions.map (fun c => (c.index, c.property))).Nodup ∧
      (∀ c ∈ conditions, ∀ i, IsIndex p c.index i → ¬ FindsEqual i → w.acceptable d.input c.index c.property c.value) ∧
      AskedLimit ⟨orNumber d.limit.default 100, orNumber d.limit.max 1000, orText d.limit.parameter "limit"⟩ params limit ∧
      AskedOffset (orText d.offsetParameter "offset") params offset ∧ min limit (orNumber d.limit.max 1000) < 2^63
  | .object _ d =>
    (∀ q ∈ filteredValues p d.parameters, q ∈ asked d.input) ∧ Fits p asked w (depthOf d.relationships) d.input d.relationships ∧
    ∃ conditions : List Condition,
      Reads env (allParameters (d.parameters.map (fun e => (e.1, completedParameter e.2))) params) conditions ∧
      (conditions.map (fun c => (c.index, c.property))).Nodup ∧
      ∀ c ∈ conditions, ∀ i, IsIndex p c.index i → ¬ FindsEqual i → w.acceptable d.input c.index c.property c.value

/-- One of the parameters gives this error when it is read, and the others give it too or can be read. -/
def OnlyError (parsers : GoMap (Bytes → Res Value)) (given : List (ParamConfig × Bytes)) (e : Fail) : Prop :=
  (∃ x ∈ given, ∃ parse, mapGet parsers x.1.parser = some parse ∧ parse x.2 = .error e) ∧
  ∀ x ∈ given, ∃ parse, mapGet parsers x.1.parser = some parse ∧ ((∃ v, parse x.2 = .ok v) ∨ parse x.2 = .error e)

/-- A request with these parameters, for this output, that has one thing wrong: it asks for a page that makes no sense, or there is only one error in reading its parameters. -/
def WrongRequest (env : OutputEnv) (params : GoMap Bytes) : OutputDecl → Prop
  | .graphql _ => True
  | .array _ d => BadPaging (orText d.limit.parameter "limit") (orText d.offsetParameter "offset") params ∨
    ∃ e, OnlyError env.parsers (givenParameters (d.parameters.map (fun e => (e.1, completedParameter e.2))) params) e
  | .object _ d => ∃ e, OnlyError env.parsers (allParameters (d.parameters.map (fun e => (e.1, completedParameter e.2))) params) e

end Rodb.Spec
