import Verif.Model.ConfigFile
import Verif.Spec.Yaml
import Verif.Spec.WellFormed
/-
  Specification vocabulary: what a configuration file says.
-/
namespace Rodb.Spec

/-- With the values of the environment variables in it, the file is a YAML document that describes this configuration. -/
def FileDescribes (lib : ConfigFileLib) (path : String) (p : ParsedConfig) : Prop :=
  ∃ text y, lib.read path = some text ∧ lib.parse (expandEnv lib.env text) = some y ∧ Describes lib.yaml y p

mutual
/-- No element of a list is `null`, and neither is a parameter or a relationship. -/
def Filled : Yaml → Prop
  | .list items => FilledList items
  | .map entries => FilledMap entries
  | _ => True
def FilledList : List Yaml → Prop
  | [] => True
  | y :: rest => y ≠ .null ∧ Filled y ∧ FilledList rest
def FilledMap : List (String × Yaml) → Prop
  | [] => True
  | (k, y) :: rest => Filled y ∧ (k = "parameters" ∨ k = "relationships" → ∀ m, y = .map m → ∀ e ∈ m, e.2 ≠ .null) ∧ FilledMap rest
end

end Rodb.Spec
