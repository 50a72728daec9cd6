import Verif.Proofs.CommandLine
import Verif.Props.ConfigFileProps
/-
  C118: the program from its command line to its servers.
-/
namespace Rodb
open Spec

/-- **C118** Exactly the command lines of the grammar are read, and of what they say the last level and the last path count. -/
theorem C118_command_line (args : List (List Char)) (f : Flags) :
    parseArguments args {} = some f ↔ ∃ said, CommandLine args said ∧ f.loglevel = levelSaid said ∧ f.config = pathSaid said := by
  constructor
  · exact parseArguments_some
  · rintro ⟨said, h1, h2, h3⟩
    rw [parseArguments_said h1, ← h2, ← h3]

/-- A command line cannot be read in two ways with different results. -/
theorem CommandLine.unique {args : List (List Char)} {a b : List Said} (ha : CommandLine args a) (hb : CommandLine args b) : levelSaid a = levelSaid b ∧ pathSaid a = pathSaid b := by
  have := parseArguments_said ha
  rw [parseArguments_said hb] at this
  simp only [Option.some.injEq, Flags.mk.injEq] at this
  exact ⟨this.1.symm, this.2.symm⟩

theorem mem_servers_completed {s : ServiceDecl} (he : s.errorsType = "" ∨ s.errorsType = "application/json") (routes : List Route) (x : Server) :
    x ∈ (completedService s).servers s.name routes ↔ AskedServer s routes x := by
  have h8 : (completedService s).errorsType = "application/json" := by
    rcases he with e | e <;> simp [completedService, orText, e]
  obtain ⟨service, protocol, asked, errorsType, routes'⟩ := x
  unfold ServiceDecl.servers
  rw [h8]
  unfold AskedServer
  cases h1 : s.http <;> cases h2 : s.https <;> simp [completedService, h1, h2] <;> grind

/-- The services of the program are those of the file. -/
theorem services_of {config : ConfigLib} {p : ParsedConfig} {c c' : Config} (hload : loadConfig config p = .ok c) (hre : Reordered c c') :
    (c'.services.map (·.1)).Nodup ∧ (∀ n d, (n, d) ∈ c'.services ↔ ∃ s ∈ p.services, s.name = n ∧ d = completedService s) ∧
      ∀ s ∈ p.services, s.errorsType = "" ∨ s.errorsType = "application/json" := by
  obtain ⟨_, _, _, _, ⟨k4, _⟩, _⟩ := loadConfig_ok hload
  have k4' : (c'.services.map (·.1)).Nodup := (hre.services.map _).nodup k4
  refine ⟨k4', fun n d => ?_, fun s hs => (((C76_accepted config p).1 ⟨c, hload⟩).services s hs).1⟩
  rw [← (C77_defaults config p c hload n).2.2.2.1 d, mapGet_perm hre.services k4]
  exact ⟨mapGet_nodup_mem k4', mapGet_mem⟩

/-- **C118** A program that is up was started by a command line that could be read, with the name of a log level in any case, runs what the configuration file of that path describes,
and serves exactly the addresses that the services of the file ask for, each with the routes of its service and each once. -/
theorem C118_up (lib : MainLib) (horder : ∀ c, Reordered c (lib.order c)) (args : List (List Char)) (servers : List Server) (services : GoMap (String × List Route))
    (h : runMain lib args = (servers, .up services)) :
    ∃ said p texts env apis, CommandLine args said ∧ String.ofList (lib.lower (levelSaid said)) ∈ levelNames ∧ FileDescribes lib.file (String.ofList (pathSaid said)) p ∧
      WellFormed lib.config p ∧ Running lib.config lib.start p texts env apis services ∧
      (∀ server, server ∈ servers ↔ ∃ s ∈ p.services, ∃ routes, mapGet services s.name = some ("application/json", routes) ∧ AskedServer s routes server) ∧
      (servers.map (fun server => (server.service, server.protocol))).Nodup := by
  unfold runMain at h
  split at h
  · cases h
  · rename_i flags hf
    obtain ⟨said, h1, h2, h3⟩ := parseArguments_some hf
    split at h
    · rename_i hlevel
      split at h
      · rename_i e _
        cases e <;> cases h
      · rename_i c hload
        split at h
        · rename_i e _
          cases e <;> cases h
        · rename_i outputs hout
          split at h
          · rename_i e _
            cases e <;> cases h
          · rename_i up services' hs
            cases h
            obtain ⟨p, hd, hp⟩ := (loadConfigFile_iff lib.file lib.config _ c).1 hload
            have hw := (C76_accepted lib.config p).1 ⟨c, hp⟩
            obtain ⟨h4, new, h5, h6, h7⟩ := startServices_ok hs
            rw [List.nil_append] at h5
            subst h5
            have hstart : start { lib.start with listen := fun _ => .ok () } (lib.order c) = .ok services := by
              rw [start_split, startOutputs_listen, hout]
              exact h4 lib.start
            obtain ⟨texts, env, apis, hrun⟩ := C78_running lib.config _ p c _ hp (horder c) services hstart
            obtain ⟨hn, hm, he⟩ := services_of hp (horder c)
            refine ⟨said, p, texts, env, apis, h1, ?_, ?_, hw, hrun.listen, ?_, h7 hn⟩
            · rw [← h2]; exact (isLevel_iff _).1 hlevel
            · rw [← h3]; exact hd
            · intro server
              rw [h6]
              have key : ∀ s ∈ p.services, ∀ routes, routesOf outputs (completedService s) = .ok routes → mapGet services s.name = some ("application/json", routes) := by
                intro s hs routes hr
                obtain ⟨y, hy, hf⟩ := instantiateMap_get (h4 lib.start) (mapGet_nodup_mem hn ((hm s.name _).2 ⟨s, hs, rfl, rfl⟩))
                simp only [ServiceDecl.instantiate, bind_ok, ok_inj] at hf
                obtain ⟨routes', hr', _, _, rfl⟩ := hf
                unfold routesOf at hr
                rw [hr] at hr'
                cases hr'
                have h8 : (completedService s).errorsType = "application/json" := by
                  rcases he s hs with e | e <;> simp [completedService, orText, e]
                rw [hy, h8]
              constructor
              · rintro ⟨n, d, routes, h8, h9, h10⟩
                obtain ⟨s, hs, rfl, rfl⟩ := (hm n d).1 h8
                exact ⟨s, hs, routes, key s hs routes h9, (mem_servers_completed (he s hs) routes server).1 h10⟩
              · rintro ⟨s, hs, routes, h8, h9⟩
                have hmem := (hm s.name _).2 ⟨s, hs, rfl, rfl⟩
                obtain ⟨y, hy, hf⟩ := instantiateMap_get (h4 lib.start) (mapGet_nodup_mem hn hmem)
                simp only [ServiceDecl.instantiate, bind_ok, ok_inj] at hf
                obtain ⟨routes', hr', _, _, rfl⟩ := hf
                have h10 := key s hs routes' hr'
                rw [h8] at h10
                cases h10
                exact ⟨s.name, _, routes, hmem, hr', (mem_servers_completed (he s hs) routes server).2 h9⟩
    · cases h

/-- **C118** A command line that cannot be read ends the program with status 2, before anything else. -/
theorem C118_unreadable (lib : MainLib) (args : List (List Char)) (h : ∀ said, ¬ CommandLine args said) : runMain lib args = ([], .exited 2) := by
  unfold runMain
  cases hf : parseArguments args {} with
  | none => rfl
  | some f =>
    obtain ⟨said, h1, _⟩ := parseArguments_some hf
    exact (h said h1).elim

/-- **C118** A level that is not one of the names ends the program with status 1, before the configuration file is read. -/
theorem C118_level (lib : MainLib) (args : List (List Char)) (said : List Said) (h : CommandLine args said) (hl : String.ofList (lib.lower (levelSaid said)) ∉ levelNames) :
    runMain lib args = ([], .exited 1) := by
  unfold runMain
  rw [parseArguments_said h]
  exact if_neg (fun e => hl ((isLevel_iff _).1 e))

/-- **C118** A file that describes no configuration, or one that is not well-formed, ends the program without a server; with status 1, if its document has no empty elements and
each of the files that it names exists, does not exist or is a directory. -/
theorem C118_config (lib : MainLib) (args : List (List Char)) (said : List Said) (h : CommandLine args said)
    (hp : ∀ p, FileDescribes lib.file (String.ofList (pathSaid said)) p → ¬ WellFormed lib.config p) :
    (∀ servers services, runMain lib args ≠ (servers, .up services)) ∧ (runMain lib args).1 = [] ∧
      ((∀ p, FileDescribes lib.file (String.ofList (pathSaid said)) p → ∀ f ∈ filesOf p, lib.config.stat f ≠ .failed) →
        (∀ text y, lib.file.read (String.ofList (pathSaid said)) = some text → lib.file.parse (expandEnv lib.file.env text) = some y → Filled y) →
        runMain lib args = ([], .exited 1)) := by
  unfold runMain
  rw [parseArguments_said h]
  simp only
  by_cases hl : isLevel (lib.lower (levelSaid said)) = true
  · simp only [if_pos hl]
    cases hload : loadConfigFile lib.file lib.config (String.ofList (pathSaid said)) with
    | ok c =>
      obtain ⟨p, h1, h2⟩ := (C93_accepted lib.file lib.config _).1 ⟨c, hload⟩
      exact (hp p h1 h2).elim
    | error e =>
      refine ⟨fun servers services => ?_, rfl, fun hs hf => ?_⟩
      · cases e <;> simp [Fail.ending]
      · rcases C93_no_panic_partial lib.file lib.config _ hs hf with ⟨c, hc⟩ | ⟨m, hm⟩
        · rw [hload] at hc; cases hc
        · rw [hload] at hm; cases hm; rfl
  · simp only [if_neg hl]
    exact ⟨fun _ _ => by simp, trivial, fun _ _ => trivial⟩

/-- **C118** A program that exits while it starts has had a reason for each server that it leaves: the file is right and asks for it. If the status is not that of a panic then an error of a
component or of a route came first, or an address that a service asks for cannot be bound. -/
theorem C118_exit (lib : MainLib) (horder : ∀ c, Reordered c (lib.order c)) (args : List (List Char)) (servers : List Server) (status : Nat)
    (h : runMain lib args = (servers, .exited status)) :
    (status = 1 ∨ status = 2) ∧ (servers ≠ [] → ∃ said p, CommandLine args said ∧ String.ofList (lib.lower (levelSaid said)) ∈ levelNames ∧
      FileDescribes lib.file (String.ofList (pathSaid said)) p ∧ WellFormed lib.config p ∧
      (∀ server ∈ servers, ∃ s ∈ p.services, ∃ routes, AskedServer s routes server) ∧
      ((∃ c s outputs e, loadConfig lib.config p = .ok c ∧ startOutputs lib.start (lib.order c) = .ok outputs ∧ s ∈ p.services ∧ routesOf outputs s = .error e) ∨
        (status = 1 ∧ ∃ s ∈ p.services, ∃ routes server, AskedServer s routes server ∧ lib.listen (servers.map Server.asked) server.asked = false))) := by
  have hstatus : ∀ e : Fail, e.ending = .exited status → status = 1 ∨ status = 2 := by
    intro e he
    cases e <;> cases he <;> simp
  unfold runMain at h
  split at h
  · cases h; exact ⟨.inr rfl, fun h => (h rfl).elim⟩
  · rename_i flags hf
    obtain ⟨said, h1, h2, h3⟩ := parseArguments_some hf
    split at h
    · rename_i hlevel
      split at h
      · rename_i e _
        simp only [Prod.mk.injEq] at h
        exact ⟨hstatus e h.2, fun hne => (hne h.1.symm).elim⟩
      · rename_i c hload
        split at h
        · rename_i e _
          simp only [Prod.mk.injEq] at h
          exact ⟨hstatus e h.2, fun hne => (hne h.1.symm).elim⟩
        · rename_i outputs hout
          split at h
          · rename_i up e hs
            simp only [Prod.mk.injEq] at h
            obtain ⟨rfl, hend⟩ := h
            refine ⟨hstatus e hend, fun hne => ?_⟩
            obtain ⟨p, hd, hp⟩ := (loadConfigFile_iff lib.file lib.config _ c).1 hload
            have hw := (C76_accepted lib.config p).1 ⟨c, hp⟩
            obtain ⟨hn, hm, he⟩ := services_of hp (horder c)
            obtain ⟨⟨new, h4, h5⟩, h6⟩ := startServices_error hs
            rw [List.nil_append] at h4
            subst h4
            refine ⟨said, p, h1, ?_, ?_, hw, ?_, ?_⟩
            · rw [← h2]; exact (isLevel_iff _).1 hlevel
            · rw [← h3]; exact hd
            · intro server hserver
              obtain ⟨n, d, routes, h7, _, h8⟩ := h5 server hserver
              obtain ⟨s, hs, rfl, rfl⟩ := (hm n d).1 h7
              exact ⟨s, hs, routes, (mem_servers_completed (he s hs) routes server).1 h8⟩
            · rcases h6 with ⟨n, d, h7, h8⟩ | ⟨⟨m, rfl⟩, n, d, routes, x, h7, _, h8, h9⟩
              · obtain ⟨s, hs, rfl, rfl⟩ := (hm n d).1 h7
                exact .inl ⟨c, s, outputs, e, hp, hout, hs, h8⟩
              · obtain ⟨s, hs, rfl, rfl⟩ := (hm n d).1 h7
                cases hend
                exact .inr ⟨rfl, s, hs, routes, x, (mem_servers_completed (he s hs) routes x).1 h8, h9⟩
          · cases h
    · cases h; exact ⟨.inl rfl, fun h => (h rfl).elim⟩

/-- **C118** The program comes up when the command line can be read, the level has a name, the file describes a well-formed configuration, what its components need is there and the
addresses can be bound. Partial: as for `C58_starts_partial`, no GraphQL output, and routes that are plain texts with placeholders. -/
theorem C118_starts_partial (lib : MainLib) (horder : ∀ c, Reordered c (lib.order c)) (args : List (List Char)) (said : List Said) (h : CommandLine args said)
    (hl : String.ofList (lib.lower (levelSaid said)) ∈ levelNames) (c : Config) (hload : loadConfigFile lib.file lib.config (String.ofList (pathSaid said)) = .ok c)
    (hg : ∀ n m, (n, OutputDecl.graphql m) ∉ c.outputs) (hroutes : ∀ n s, (n, s) ∈ c.services → ∀ r ∈ s.routes, GoodRoute c r)
    (ha : Available { lib.start with listen := fun _ => .ok () } c)
    (hlisten : ∀ n s, (n, s) ∈ c.services → ∀ address, s.http = some address ∨ s.https.map HttpsDecl.listen = some address → ∀ taken, lib.listen taken address = true) :
    ∃ servers services, runMain lib args = (servers, .up services) := by
  obtain ⟨p, _, hp⟩ := (loadConfigFile_iff lib.file lib.config _ c).1 hload
  obtain ⟨services, hstart⟩ := C58_starts_partial lib.config p c hp (lib.order c) (horder c) hg hroutes _ ha
  rw [start_split, startOutputs_listen] at hstart
  cases hout : startOutputs lib.start (lib.order c) with
  | error e => rw [hout] at hstart; cases hstart
  | ok outputs =>
    rw [hout] at hstart
    have hserv := (instantiateMap_ok (f := ServiceDecl.instantiate { lib.start with listen := fun _ => .ok () } outputs) (m := (lib.order c).services)).1 ⟨services, hstart⟩
    obtain ⟨up, services', hs⟩ := startServices_free (listen := lib.listen) (outputs := outputs) (m := (lib.order c).services) (up := []) (by
      intro n d hd
      obtain ⟨y, hy⟩ := hserv n d hd
      simp only [ServiceDecl.instantiate, bind_ok, ok_inj] at hy
      obtain ⟨routes, hr, _, _, rfl⟩ := hy
      refine ⟨routes, hr, fun x hx taken => ?_⟩
      have hd' := (horder c).services.symm.subset hd
      have hl' := hlisten n d hd'
      unfold ServiceDecl.servers at hx
      cases h1 : d.http <;> cases h2 : d.https <;> simp [h1, h2] at hx hl' <;> grind)
    refine ⟨up, services', ?_⟩
    unfold runMain
    rw [parseArguments_said h]
    simp only [(isLevel_iff _).2 hl, if_true, hload, hout, hs]

theorem servers_one {s : ServiceDecl} (h : s.http = none ∨ s.https = none) (name : String) (routes : List Route) : (s.servers name routes).length ≤ 1 := by
  unfold ServiceDecl.servers
  rcases h with h | h <;> rw [h] <;> simp <;> split <;> simp

/-- **C118** A program that exits while it starts has served nothing, if its file asks for one address.
Partial: with several addresses this is false, see `C118_false`. -/
theorem C118_quiet_partial (lib : MainLib) (horder : ∀ c, Reordered c (lib.order c)) (args : List (List Char)) (servers : List Server) (status : Nat)
    (h : runMain lib args = (servers, .exited status))
    (hone : ∀ said p, CommandLine args said → FileDescribes lib.file (String.ofList (pathSaid said)) p → ∃ s, p.services = [s] ∧ (s.http = none ∨ s.https = none)) :
    servers = [] := by
  unfold runMain at h
  split at h
  · cases h; rfl
  · rename_i flags hf
    obtain ⟨said, h1, h2, h3⟩ := parseArguments_some hf
    split at h
    · rename_i hlevel
      split at h
      · exact (congrArg Prod.fst h).symm
      · rename_i c hload
        split at h
        · exact (congrArg Prod.fst h).symm
        · rename_i outputs hout
          split at h
          · rename_i up e hs
            simp only [Prod.mk.injEq] at h
            obtain ⟨rfl, hend⟩ := h
            obtain ⟨p, hd, hp⟩ := (loadConfigFile_iff lib.file lib.config _ c).1 hload
            obtain ⟨hn, hm, he⟩ := services_of hp (horder c)
            rw [h3] at hd
            obtain ⟨s, hs1, hs2⟩ := hone said p h1 hd
            have hall : ∀ x ∈ (lib.order c).services, x = (s.name, completedService s) := by
              rintro ⟨n, d⟩ hx
              obtain ⟨s', h4, rfl, rfl⟩ := (hm n d).1 hx
              rw [hs1] at h4
              rw [List.mem_singleton.1 h4]
            have hc : (completedService s).http = none ∨ (completedService s).https = none := by
              rcases hs2 with e | e <;> simp [completedService, e]
            generalize (lib.order c).services = m at hs hall hn
            rcases m with _ | ⟨⟨n, d⟩, rest⟩
            · cases hs
            · have e1 := hall _ List.mem_cons_self
              cases e1
              rcases rest with _ | ⟨y, rest⟩
              · rw [startServices_cons] at hs
                split at hs
                · cases hs; rfl
                · rename_i routes _
                  split at hs
                  · rename_i h5
                    cases hs
                    obtain ⟨_, new, x, after, h6, h7, _⟩ := startServers_error h5
                    have h8 := servers_one hc s.name routes
                    rw [h6] at h8
                    simp only [List.length_append, List.length_cons] at h8
                    rw [h7, List.eq_nil_of_length_eq_zero (l := new) (by omega)]
                    rfl
                  · cases hs
              · have e2 := hall y (by simp)
                rw [e2] at hn
                simp at hn
          · cases h
    · cases h; rfl

namespace CommandLineExample

def text (s : String) : List Char := s.toList

/-- `rodb stray -cfirst.yaml --loglevel=WARN -l debug --config rodb.yaml -- -x`: all but one of the notations; the last values count. -/
theorem said : CommandLine [text "stray", text "-cfirst.yaml", text "--loglevel=WARN", text "-l", text "debug", text "--config", text "rodb.yaml", text "--", text "-x"]
    [.path (text "first.yaml"), .level (text "WARN"), .level (text "debug"), .path (text "rodb.yaml")] := by
  refine .other (.inl (by simp [text])) (.letterJoined (s := .path (text "first.yaml")) (by simp [text, Said.text]) (by simp [text, Said.text])
    (.longEquals (s := .level (text "WARN")) (.letter (s := .level (text "debug")) (.long (s := .path (text "rodb.yaml")) .stop))))

/-- The same with `-c=rodb.yaml` and an argument of the test framework. -/
theorem saidShort : CommandLine [text "-c=rodb.yaml", text "-test.v", text "-"] [.path (text "rodb.yaml")] :=
  .letterEquals (s := .path (text "rodb.yaml")) (by simp [text, Said.text]) (.test (v := ['v']) (.other (.inr rfl) .done))

/-- After the command line, the level and the file. -/
theorem run_of {lib : MainLib} {args : List (List Char)} {said : List Said} {c : Config} (h : CommandLine args said) (hl : String.ofList (lib.lower (levelSaid said)) ∈ levelNames)
    (hload : loadConfigFile lib.file lib.config (String.ofList (pathSaid said)) = .ok c) {outputs : GoMap OutputApi} (hout : startOutputs lib.start (lib.order c) = .ok outputs) :
    runMain lib args = match startServices lib.listen outputs [] (lib.order c).services with
      | (up, .error e) => (up, e.ending)
      | (up, .ok services) => (up, .up services) := by
  unfold runMain
  rw [parseArguments_said h]
  simp only [(isLevel_iff _).2 hl, if_true, hload, hout]
  rfl

/-- The machine of the examples of the configuration, with the file of `ConfigFileExample`; `listen` says which addresses are free. -/
def lib (parserLib : ParserLib) (listen : List String → String → Bool) : MainLib where
  lower := id
  file := ConfigFileExample.lib true
  config := ConfigExample.lib
  start := ConfigExample.startLib parserLib
  order := id
  listen := listen

theorem sameOrder (c : Config) : Reordered c (id c) := ⟨.refl _, .refl _, .refl _, .refl _, .refl _⟩

theorem loads (parserLib : ParserLib) (listen : List String → String → Bool) :
    loadConfigFile (lib parserLib listen).file (lib parserLib listen).config (String.ofList (text "rodb.yaml")) = .ok ConfigExample.loaded := by
  have : String.ofList (text "rodb.yaml") = "rodb.yaml" := by simp [text]
  rw [this]
  exact ConfigFileExample.accepted.2

/-- Those of `C118_up`: with this command line the program comes up, and serves one address. -/
example (parserLib : ParserLib) : ∃ server services, runMain (lib parserLib (fun _ _ => true))
    [text "stray", text "-cfirst.yaml", text "--loglevel=WARN", text "-l", text "debug", text "--config", text "rodb.yaml", text "--", text "-x"] = ([server], .up services) ∧
    server.asked = "127.0.0.1:0" ∧ server.protocol = .http := by
  obtain ⟨outputs, hout⟩ : ∃ outputs, startOutputs (ConfigExample.startLib parserLib) ConfigExample.loaded = .ok outputs := ⟨_, rfl⟩
  have hs : ∃ server services, startServices (fun _ _ => true) outputs [] ConfigExample.loaded.services = ([server], .ok services) ∧ server.asked = "127.0.0.1:0" ∧ server.protocol = .http := by
    cases hout
    exact ⟨_, _, rfl, rfl, rfl⟩
  obtain ⟨server, services, hs, h1⟩ := hs
  refine ⟨server, services, ?_, h1⟩
  rw [run_of (lib := lib parserLib (fun _ _ => true)) said (by simp [lib, levelSaid, text, levelNames]) (loads _ _) hout]
  show (match startServices (fun _ _ => true) outputs [] ConfigExample.loaded.services with
      | (up, .error e) => (up, e.ending)
      | (up, .ok services) => (up, StartEnding.up services)) = _
  rw [hs]

/-- Those of `C118_quiet_partial`: the same when no address can be bound. -/
example (parserLib : ParserLib) : runMain (lib parserLib (fun _ _ => false)) [text "-c=rodb.yaml", text "-test.v", text "-"] = ([], .exited 1) := by
  obtain ⟨outputs, hout⟩ : ∃ outputs, startOutputs (ConfigExample.startLib parserLib) ConfigExample.loaded = .ok outputs := ⟨_, rfl⟩
  have hs : ∃ m, startServices (fun _ _ => false) outputs [] ConfigExample.loaded.services = ([], .error (.err m)) := by
    cases hout
    exact ⟨_, rfl⟩
  obtain ⟨m, hs⟩ := hs
  rw [run_of (lib := lib parserLib (fun _ _ => false)) saidShort (by simp [lib, levelSaid, text, levelNames]) (loads _ _) hout]
  show (match startServices (fun _ _ => false) outputs [] ConfigExample.loaded.services with
      | (up, .error e) => (up, e.ending)
      | (up, .ok services) => (up, StartEnding.up services)) = _
  rw [hs]
  rfl

/-- Those of `C118_starts_partial`. -/
example (parserLib : ParserLib) : Available { (lib parserLib (fun _ _ => true)).start with listen := fun _ => .ok () } ConfigExample.loaded := ConfigExample.available parserLib

/-- Those of `C118_unreadable`: the value of the last flag is missing; and an unknown flag. -/
example (lib : MainLib) : runMain lib [text "-l", text "info", text "--config"] = ([], .exited 2) := rfl
theorem unknown : ∀ said, ¬ CommandLine [text "--conf=x"] said := by
  intro said h
  have := parseArguments_said h
  cases this
example (lib : MainLib) : runMain lib [text "--conf=x"] = ([], .exited 2) := C118_unreadable lib _ unknown

/-- Those of `C118_level`. -/
example (parserLib : ParserLib) : runMain (lib parserLib (fun _ _ => true)) [text "--loglevel=all"] = ([], .exited 1) :=
  C118_level _ _ [.level (text "all")] (.longEquals (s := .level (text "all")) .done) (by simp [lib, levelSaid, text, levelNames])

/-- Those of `C118_config`: there is no such file. -/
example (parserLib : ParserLib) : runMain (lib parserLib (fun _ _ => true)) [text "-cother"] = ([], .exited 1) :=
  (C118_config (lib parserLib (fun _ _ => true)) _ [.path (text "other")] (.letterJoined (s := .path (text "other")) (by simp [text, Said.text]) (by simp [text, Said.text]) .done)
    (fun p ⟨_, _, h, _⟩ => by simp [lib, ConfigFileExample.lib, pathSaid, text] at h)).2.2 (by intro p _ f _ h; simp [lib, ConfigExample.lib] at h)
    (fun _ _ h => by simp [lib, ConfigFileExample.lib, pathSaid, text] at h)

/-- The example with a second service. -/
def two : ParsedConfig := { ConfigExample.parsed with services := ConfigExample.parsed.services ++
  [{ name := "admin", http := some ":80", https := none, errorsType := "", routes := [⟨"list", "/all"⟩] }] }

def twoLoaded : Config := { ConfigExample.loaded with services := ConfigExample.loaded.services ++
  [("admin", { name := "admin", http := some ":80", https := none, errorsType := "application/json", routes := [⟨"list", "/all"⟩] })] }

def twoFile : ConfigFileLib := { ConfigFileExample.lib true with parse := fun text => if text = [112] then some (documentOf two) else none }

theorem twoLoads : loadConfigFile twoFile ConfigExample.lib "rodb.yaml" = .ok twoLoaded := by
  have hl : loadConfig ConfigExample.lib two = .ok twoLoaded := by rfl
  have hw := (C76_accepted ConfigExample.lib two).1 ⟨_, hl⟩
  obtain ⟨_, c, h2, h3⟩ := C93_written twoFile ConfigExample.lib "rodb.yaml" two
    ⟨by simp [two, ConfigExample.parsed], by simp [two, ConfigExample.parsed, AllInRange], by simp [two, ConfigExample.parsed, AllInRange, InRange]⟩ hw [36, 80]
    (by simp [twoFile, ConfigFileExample.lib])
    (by simp [twoFile, ConfigFileExample.lib, expandEnv, expandLoop, shellName, isShellSpecial, isAlphaNum])
  rw [hl] at h3
  cases h3
  exact h2

end CommandLineExample

/-- **C118** A program that exits while it starts can have served: of two services the second cannot bind its address, when the first one has answered for a while. -/
theorem C118_false (parserLib : ParserLib) : ∃ lib : MainLib, lib.start.parserLib = parserLib ∧ (∀ c, Reordered c (lib.order c)) ∧ (∀ taken, lib.listen taken ":80" = false) ∧
    ∃ server, runMain lib [] = ([server], .exited 1) ∧ server.service = "web" ∧ server.routes ≠ [] := by
  refine ⟨{ CommandLineExample.lib parserLib (fun _ a => a ≠ ":80") with file := CommandLineExample.twoFile }, rfl, CommandLineExample.sameOrder, fun _ => by simp [CommandLineExample.lib], ?_⟩
  obtain ⟨outputs, hout⟩ : ∃ outputs, startOutputs (ConfigExample.startLib parserLib) CommandLineExample.twoLoaded = .ok outputs := ⟨_, rfl⟩
  have hs : ∃ server m, startServices (fun _ a => a ≠ ":80") outputs [] CommandLineExample.twoLoaded.services = ([server], .error (.err m)) ∧ server.service = "web" ∧ server.routes ≠ [] := by
    cases hout
    exact ⟨_, _, rfl, rfl, fun h => nomatch h⟩
  obtain ⟨server, m, hs, h1⟩ := hs
  refine ⟨server, ?_, h1⟩
  have hp : String.ofList (pathSaid []) = "rodb.yaml" := by simp [pathSaid]
  rw [CommandLineExample.run_of (lib := { CommandLineExample.lib parserLib (fun _ a => a ≠ ":80") with file := CommandLineExample.twoFile }) (said := []) .done (by simp [CommandLineExample.lib, levelSaid, levelNames])
    (by rw [hp]; exact CommandLineExample.twoLoads) hout]
  show (match startServices (fun _ a => a ≠ ":80") outputs [] CommandLineExample.twoLoaded.services with
      | (up, .error e) => (up, e.ending)
      | (up, .ok services) => (up, StartEnding.up services)) = _
  rw [hs]
  rfl

end Rodb
