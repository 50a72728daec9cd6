import Verif.Model.Expand
import Verif.Model.Yaml
/-
  pkg/config/config.go : from the configuration file to the configuration.
-/
namespace Rodb

/-- What is around the configuration file: the files, the environment variables, and the YAML parser (yaml.v2's parser with its resolution of scalars, aliases and merge keys: the
first document of the text as a tree, `null` if there is none). -/
structure ConfigFileLib where
  read : String → Option Bytes
  env : Bytes → Bytes
  parse : Bytes → Option Yaml
  yaml : YamlLib

/-- pkg/config/config.go:32-57 `NewConfigFromYamlFile`. -/
def loadConfigFile (lib : ConfigFileLib) (config : ConfigLib) (path : String) : Res Config := do
  match lib.read path with
  | none => .error (.err "Cannot read config file")
  | some text =>
    match lib.parse (expandEnv lib.env text) with
    | none => .error (.err "Cannot parse config file")
    | some y => do
      let p ← decodeConfig lib.yaml y
      loadConfig config p

end Rodb
