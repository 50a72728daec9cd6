import Verif.Spec.WellFormed
/-
  Specification vocabulary: configurations in which the defaults are written out.
-/
namespace Rodb.Spec

/-- The configuration with every documented default written out: the settings that were left out, the parsers that need not be declared and the index called "default". -/
def explicit (lib : ConfigLib) (p : ParsedConfig) : ParsedConfig where
  parsers := p.parsers.map completedParser ++ builtinParsers.filter (fun b => !(p.parsers.map ParserDecl.name).contains b.name)
  inputs := p.inputs.map completedInput
  indexes := p.indexes.map (completedIndex lib) ++ (if "default" ∈ p.indexes.map IndexDecl.name then [] else [.noop "default"])
  services := p.services.map completedService
  outputs := p.outputs.map completedOutput

/-- Two configurations that say the same, up to the order in which components are declared: some of the defaults may be written out in one and left out in the other. -/
structure SaysTheSame (lib : ConfigLib) (p p' : ParsedConfig) : Prop where
  parsers : (explicit lib p).parsers.Perm (explicit lib p').parsers
  inputs : (explicit lib p).inputs.Perm (explicit lib p').inputs
  indexes : (explicit lib p).indexes.Perm (explicit lib p').indexes
  services : (explicit lib p).services.Perm (explicit lib p').services
  outputs : (explicit lib p).outputs.Perm (explicit lib p').outputs

end Rodb.Spec
