import Verif.Spec.CommandLine
import Verif.Proofs.Running
/-
  Lemmas about the command line and the start of the servers.
-/
namespace Rodb
open Spec

def Flag.said : Flag → List Char → Said
  | .loglevel, v => .level v
  | .config, v => .path v

/-- The flags after what has been said. -/
def Flags.say (f : Flags) : Said → Flags
  | .level v => { f with loglevel := v }
  | .path v => { f with config := v }

theorem Flags.set_say (f : Flags) (flag : Flag) (v : List Char) : f.set flag v = f.say (flag.said v) := by cases flag <;> rfl

theorem Flag.said_text (flag : Flag) (v : List Char) : (flag.said v).text = v := by cases flag <;> rfl

theorem Said.of_flag (s : Said) : ∃ flag v, s = Flag.said flag v := by
  cases s with
  | level v => exact ⟨.loglevel, v, rfl⟩
  | path v => exact ⟨.config, v, rfl⟩

theorem flagNamed_some {name : List Char} {flag : Flag} (h : flagNamed name = some flag) (v : List Char) : name = (flag.said v).longName := by
  unfold flagNamed at h
  split at h
  · cases h; assumption
  · split at h
    · cases h; assumption
    · cases h

theorem flagLetter_some {c : Char} {flag : Flag} (h : flagLetter c = some flag) (v : List Char) : c = (flag.said v).letter := by
  unfold flagLetter at h
  split at h
  · cases h; assumption
  · split at h
    · cases h; assumption
    · cases h

theorem splitEquals_eq : ∀ l : List Char, l = match splitEquals l with | (name, none) => name | (name, some v) => name ++ '=' :: v
  | [] => rfl
  | c :: rest => by
    have ih := splitEquals_eq rest
    unfold splitEquals
    by_cases hc : c = '='
    · rw [if_pos hc, hc]; rfl
    · rw [if_neg hc]
      rcases hs : splitEquals rest with ⟨name, _ | v⟩ <;> rw [hs] at ih <;> exact congrArg (c :: ·) ih

theorem splitEquals_append : ∀ (name : List Char), '=' ∉ name → ∀ v, splitEquals (name ++ '=' :: v) = (name, some v)
  | [], _, v => by simp [splitEquals]
  | c :: rest, h, v => by
    simp only [List.mem_cons, not_or] at h
    simp [splitEquals, splitEquals_append rest h.2 v, Ne.symm h.1]

theorem splitEquals_name : ∀ (name : List Char), '=' ∉ name → splitEquals name = (name, none)
  | [], _ => rfl
  | c :: rest, h => by
    simp only [List.mem_cons, not_or] at h
    simp [splitEquals, splitEquals_name rest h.2, Ne.symm h.1]

/-! ### One argument -/

theorem readArgument_skip {a : List Char} (h : readArgument a = .skip) : ((∀ v, a ≠ '-' :: v) ∨ a = ['-']) ∨ ∃ v, a = "-test.".toList ++ v := by
  unfold readArgument at h
  split at h
  · cases h
  · cases h
  · cases h
  · split at h
    split at h <;> cases h
  · exact .inr ⟨_, rfl⟩
  · split at h <;> cases h
  · rename_i x1 x2
    refine .inl ?_
    rcases a with _ | ⟨c, rest⟩
    · exact .inl (fun v h => by cases h)
    · by_cases hc : c = '-'
      · subst hc
        rcases rest with _ | ⟨d, rest⟩
        · exact .inr rfl
        · simp_all
      · exact .inl (fun v h => hc (by cases h; rfl))

theorem readArgument_stop {a : List Char} (h : readArgument a = .stop) : a = ['-', '-'] := by
  unfold readArgument at h
  split at h
  · rfl
  · cases h
  · cases h
  · split at h
    split at h <;> cases h
  · cases h
  · split at h <;> cases h
  · cases h

theorem readArgument_next {a : List Char} {flag : Flag} (h : readArgument a = .next flag) (v : List Char) :
    a = '-' :: '-' :: (flag.said v).longName ∨ a = ['-', (flag.said v).letter] := by
  unfold readArgument at h
  split at h
  · cases h
  · cases h
  · cases h
  · split at h
    rename_i rest _ _ _ _ name value hs
    have he := splitEquals_eq rest
    rw [hs] at he
    split at h
    · cases h
    · cases h
    · cases h
      rename_i hf
      rw [he, ← flagNamed_some hf v]
      exact .inl rfl
  · cases h
  · split at h
    · cases h
    · cases h
      rename_i hf
      rw [← flagLetter_some hf v]
      exact .inr rfl
    · cases h
    · cases h
  · cases h

theorem readArgument_value {a : List Char} {flag : Flag} {v : List Char} (h : readArgument a = .value flag v) :
    a = '-' :: '-' :: (flag.said v).longName ++ '=' :: v ∨ (v ≠ [] ∧ a = '-' :: (flag.said v).letter :: '=' :: v) ∨
      (v ≠ [] ∧ (∀ c u, v ≠ '=' :: c :: u) ∧ a = '-' :: (flag.said v).letter :: v) := by
  unfold readArgument at h
  split at h
  · cases h
  · cases h
  · cases h
  · split at h
    rename_i rest _ _ _ _ name value hs
    have he := splitEquals_eq rest
    rw [hs] at he
    split at h
    · cases h
    · cases h
      rename_i hf
      rw [he, ← flagNamed_some hf v]
      exact .inl rfl
    · cases h
  · cases h
  · split at h
    · cases h
    · cases h
    · cases h
      rename_i hf
      rw [← flagLetter_some hf]
      exact .inr (.inl ⟨by simp, rfl⟩)
    · cases h
      rename_i hf h1 h2 _ _ _ _
      rw [← flagLetter_some hf]
      exact .inr (.inr ⟨h1, h2, rfl⟩)
  · cases h

theorem readArgument_other {a : List Char} (h : (∀ v, a ≠ '-' :: v) ∨ a = ['-']) : readArgument a = .skip := by
  rcases h with h | rfl
  · unfold readArgument
    split <;> first | rfl | exact (h _ rfl).elim
  · rfl

theorem readArgument_test (v : List Char) : readArgument ("-test.".toList ++ v) = .skip := rfl

theorem readArgument_long (flag : Flag) (v : List Char) : readArgument ('-' :: '-' :: (flag.said v).longName) = .next flag := by
  cases flag <;> rfl

theorem readArgument_longEquals (flag : Flag) (v u : List Char) : readArgument ('-' :: '-' :: (flag.said v).longName ++ '=' :: u) = .value flag u := by
  cases flag <;> rfl

theorem readArgument_letter (flag : Flag) (v : List Char) : readArgument ['-', (flag.said v).letter] = .next flag := by
  cases flag <;> rfl

theorem readArgument_letterEquals (flag : Flag) (v : List Char) (h : v ≠ []) : readArgument ('-' :: (flag.said v).letter :: '=' :: v) = .value flag v := by
  rcases v with _ | ⟨c, v⟩
  · exact (h rfl).elim
  · cases flag <;> rfl

theorem readArgument_letterJoined (flag : Flag) (v : List Char) (h : v ≠ []) (h' : ∀ c u, v ≠ '=' :: c :: u) : readArgument ('-' :: (flag.said v).letter :: v) = .value flag v := by
  rcases v with _ | ⟨c, v⟩
  · exact (h rfl).elim
  · cases flag <;> simp only [Flag.said, Said.letter, readArgument, flagLetter] <;> simp <;> grind

/-! ### All the arguments -/

theorem parseArguments_iff : ∀ (n : Nat) (args : List (List Char)), args.length ≤ n → ∀ f g, parseArguments args f = some g → ∃ said, CommandLine args said ∧ g = said.foldl Flags.say f
  | _, [], _, f, g, h => by cases h; exact ⟨[], .done, rfl⟩
  | 0, _ :: _, hn, _, _, _ => by simp at hn
  | n + 1, a :: args, hn, f, g, h => by
    simp only [List.length_cons, Nat.add_le_add_iff_right] at hn
    unfold parseArguments at h
    split at h
    · rename_i ha
      obtain ⟨said, h1, h2⟩ := parseArguments_iff n args hn f g h
      rcases readArgument_skip ha with h3 | ⟨v, rfl⟩
      · exact ⟨said, .other h3 h1, h2⟩
      · exact ⟨said, .test h1, h2⟩
    · rename_i ha
      cases h
      rw [readArgument_stop ha]
      exact ⟨[], .stop, rfl⟩
    · rename_i flag v ha
      obtain ⟨said, h1, h2⟩ := parseArguments_iff n args hn _ g h
      rw [Flags.set_say] at h2
      refine ⟨flag.said v :: said, ?_, h2⟩
      have ht := flag.said_text v
      rcases readArgument_value ha with rfl | ⟨h3, rfl⟩ | ⟨h3, h4, rfl⟩
      · have := CommandLine.longEquals (s := flag.said v) h1
        rwa [ht] at this
      · have := CommandLine.letterEquals (s := flag.said v) (by rw [ht]; exact h3) h1
        rwa [ht] at this
      · have := CommandLine.letterJoined (s := flag.said v) (by rw [ht]; exact h3) (by rw [ht]; exact h4) h1
        rwa [ht] at this
    · rename_i flag ha
      split at h
      · cases h
      · rename_i v args
        simp only [List.length_cons] at hn
        obtain ⟨said, h1, h2⟩ := parseArguments_iff n args (by omega) _ g h
        rw [Flags.set_say] at h2
        refine ⟨flag.said v :: said, ?_, h2⟩
        have ht := flag.said_text v
        rcases readArgument_next ha v with rfl | rfl
        · have := CommandLine.long (s := flag.said v) h1
          rwa [ht] at this
        · have := CommandLine.letter (s := flag.said v) h1
          rwa [ht] at this
    · cases h

theorem parseArguments_of {args : List (List Char)} {said : List Said} (h : CommandLine args said) : ∀ f, parseArguments args f = some (said.foldl Flags.say f) := by
  induction h with
  | done => intro f; rfl
  | @long s args said h ih =>
    intro f
    obtain ⟨flag, v, rfl⟩ := Said.of_flag s
    unfold parseArguments
    rw [readArgument_long]
    simp only [Flag.said_text, Flags.set_say, ih, List.foldl_cons]
  | @longEquals s args said h ih =>
    intro f
    obtain ⟨flag, v, rfl⟩ := Said.of_flag s
    unfold parseArguments
    rw [Flag.said_text, readArgument_longEquals]
    simp only [Flags.set_say, ih, List.foldl_cons]
  | @letter s args said h ih =>
    intro f
    obtain ⟨flag, v, rfl⟩ := Said.of_flag s
    unfold parseArguments
    rw [readArgument_letter]
    simp only [Flag.said_text, Flags.set_say, ih, List.foldl_cons]
  | @letterEquals s args said h1 h ih =>
    intro f
    obtain ⟨flag, v, rfl⟩ := Said.of_flag s
    rw [Flag.said_text] at h1
    unfold parseArguments
    rw [Flag.said_text, readArgument_letterEquals flag v h1]
    simp only [Flags.set_say, ih, List.foldl_cons]
  | @letterJoined s args said h1 h2 h ih =>
    intro f
    obtain ⟨flag, v, rfl⟩ := Said.of_flag s
    simp only [Flag.said_text] at h1 h2
    unfold parseArguments
    rw [Flag.said_text, readArgument_letterJoined flag v h1 h2]
    simp only [Flags.set_say, ih, List.foldl_cons]
  | other h1 h ih =>
    intro f
    unfold parseArguments
    rw [readArgument_other h1]
    exact ih f
  | test h ih =>
    intro f
    unfold parseArguments
    rw [readArgument_test]
    exact ih f
  | stop => intro f; rfl

theorem say_level (said : List Said) : ∀ f : Flags, (said.foldl Flags.say f).loglevel = said.foldl (fun v s => match s with | .level t => t | .path _ => v) f.loglevel := by
  induction said with
  | nil => intro f; rfl
  | cons s rest ih => intro f; cases s <;> exact ih _

theorem say_path (said : List Said) : ∀ f : Flags, (said.foldl Flags.say f).config = said.foldl (fun v s => match s with | .level _ => v | .path t => t) f.config := by
  induction said with
  | nil => intro f; rfl
  | cons s rest ih => intro f; cases s <;> exact ih _

theorem parseArguments_some {args : List (List Char)} {f : Flags} (h : parseArguments args {} = some f) :
    ∃ said, CommandLine args said ∧ f.loglevel = levelSaid said ∧ f.config = pathSaid said := by
  obtain ⟨said, h1, rfl⟩ := parseArguments_iff _ args (Nat.le_refl _) _ _ h
  exact ⟨said, h1, say_level said _, say_path said _⟩

theorem parseArguments_said {args : List (List Char)} {said : List Said} (h : CommandLine args said) :
    parseArguments args {} = some { loglevel := levelSaid said, config := pathSaid said } := by
  rw [parseArguments_of h]
  exact congrArg some (congr (congrArg Flags.mk (say_level said _)) (say_path said _))

theorem isLevel_iff (text : List Char) : isLevel text = true ↔ String.ofList text ∈ levelNames := by
  have e : ∀ s : String, String.ofList text = s ↔ text = s.toList := by
    intro s
    constructor
    · rintro rfl; simp
    · rintro rfl; simp
  simp only [isLevel, List.contains_eq_mem, decide_eq_true_eq, levelNames, List.mem_cons, List.not_mem_nil, or_false, e]

/-! ### Servers -/

theorem startServers_ok {listen : List String → String → Bool} : ∀ {l up up' : List Server}, startServers listen up l = (up', .ok ()) → up' = up ++ l
  | [], up, up', h => by cases h; simp
  | s :: rest, up, up', h => by
    unfold startServers at h
    split at h
    · rw [startServers_ok h]; simp
    · cases h

theorem startServers_error {listen : List String → String → Bool} : ∀ {l up up' : List Server} {e : Fail}, startServers listen up l = (up', .error e) →
    (∃ message, e = .err message) ∧ ∃ new s rest, l = new ++ s :: rest ∧ up' = up ++ new ∧ listen (up'.map Server.asked) s.asked = false
  | [], up, up', e, h => by cases h
  | s :: rest, up, up', e, h => by
    unfold startServers at h
    split at h
    · obtain ⟨h1, new, s', rest', rfl, rfl, h2⟩ := startServers_error h
      exact ⟨h1, s :: new, s', rest', rfl, by simp, h2⟩
    · rename_i hl
      cases h
      exact ⟨⟨_, rfl⟩, [], s, rest, rfl, by simp, by simpa using hl⟩

theorem startServers_free {listen : List String → String → Bool} : ∀ {l up : List Server}, (∀ s ∈ l, ∀ taken, listen taken s.asked = true) → startServers listen up l = (up ++ l, .ok ())
  | [], up, _ => by simp [startServers]
  | s :: rest, up, h => by
    unfold startServers
    rw [if_pos (h s List.mem_cons_self _), startServers_free (fun x hx => h x (List.mem_cons_of_mem _ hx))]
    simp

/-- The routes of a service. -/
def routesOf (outputs : GoMap OutputApi) (c : ServiceDecl) : Res (List Route) := createRoutes outputs (c.routes.map (fun r => (r.output, r.path.toList)))

theorem startServices_cons (listen : List String → String → Bool) (outputs : GoMap OutputApi) (up : List Server) (name : String) (c : ServiceDecl) (rest : GoMap ServiceDecl) :
    startServices listen outputs up ((name, c) :: rest) =
      match routesOf outputs c with
      | .error e => (up, .error e)
      | .ok routes =>
        match startServers listen up (c.servers name routes) with
        | (up, .error e) => (up, .error e)
        | (up, .ok ()) =>
          match startServices listen outputs up rest with
          | (up, .error e) => (up, .error e)
          | (up, .ok services) => (up, .ok ((name, (c.errorsType, routes)) :: services)) := rfl

theorem servers_service {c : ServiceDecl} {name : String} {routes : List Route} {x : Server} (h : x ∈ c.servers name routes) : x.service = name := by
  unfold ServiceDecl.servers at h
  split at h <;> split at h <;> simp at h <;> grind

theorem servers_nodup (c : ServiceDecl) (name : String) (routes : List Route) : ((c.servers name routes).map (fun s => (s.service, s.protocol))).Nodup := by
  unfold ServiceDecl.servers
  split <;> split <;> simp

theorem startServices_ok {listen : List String → String → Bool} {outputs : GoMap OutputApi} : ∀ {m : GoMap ServiceDecl} {up up' : List Server} {services : GoMap (String × List Route)},
    startServices listen outputs up m = (up', .ok services) →
      (∀ lib : StartLib, instantiateMap (ServiceDecl.instantiate { lib with listen := fun _ => .ok () } outputs) m = .ok services) ∧
      ∃ new, up' = up ++ new ∧ (∀ x, x ∈ new ↔ ∃ name c routes, (name, c) ∈ m ∧ routesOf outputs c = .ok routes ∧ x ∈ c.servers name routes) ∧
        ((m.map (·.1)).Nodup → (new.map (fun s => (s.service, s.protocol))).Nodup)
  | [], up, up', services, h => by
    cases h
    exact ⟨fun _ => rfl, [], by simp, by simp, by simp⟩
  | (name, c) :: rest, up, up', services, h => by
    rw [startServices_cons] at h
    split at h
    · cases h
    · rename_i routes hr
      split at h
      · cases h
      · rename_i up1 h1
        split at h
        · cases h
        · rename_i up2 services2 h2
          cases h
          obtain ⟨h3, new, h4, h5, h6⟩ := startServices_ok h2
          have h7 := startServers_ok h1
          refine ⟨fun lib => ?_, c.servers name routes ++ new, by rw [h4, h7, List.append_assoc], fun x => ?_, fun hn => ?_⟩
          · have e : ServiceDecl.instantiate { lib with listen := fun _ => .ok () } outputs c = .ok (c.errorsType, routes) := by
              unfold routesOf at hr
              simp [ServiceDecl.instantiate, hr, bind_ok]
            simp [instantiateMap, e, h3 lib, bind_ok]
          · rw [List.mem_append, h5]
            constructor
            · rintro (hx | ⟨n, d, r, hm, hr', hx⟩)
              · exact ⟨name, c, routes, List.mem_cons_self, hr, hx⟩
              · exact ⟨n, d, r, List.mem_cons_of_mem _ hm, hr', hx⟩
            · rintro ⟨n, d, r, hm, hr', hx⟩
              rcases List.mem_cons.1 hm with e | hm
              · cases e
                rw [hr] at hr'
                cases hr'
                exact .inl hx
              · exact .inr ⟨n, d, r, hm, hr', hx⟩
          · simp only [List.map_cons, List.nodup_cons] at hn
            rw [List.map_append, List.nodup_append]
            refine ⟨servers_nodup _ _ _, h6 hn.2, ?_⟩
            intro a ha b hb e
            subst e
            obtain ⟨x, hx, rfl⟩ := List.mem_map.1 ha
            obtain ⟨y, hy, e⟩ := List.mem_map.1 hb
            obtain ⟨n, d, r, hm, _, hy⟩ := (h5 y).1 hy
            simp only [Prod.mk.injEq, servers_service hx, servers_service hy] at e
            exact hn.1 (List.mem_map.2 ⟨(n, d), hm, e.1⟩)

theorem startServices_error {listen : List String → String → Bool} {outputs : GoMap OutputApi} : ∀ {m : GoMap ServiceDecl} {up up' : List Server} {e : Fail},
    startServices listen outputs up m = (up', .error e) →
      (∃ new, up' = up ++ new ∧ (∀ x ∈ new, ∃ name c routes, (name, c) ∈ m ∧ routesOf outputs c = .ok routes ∧ x ∈ c.servers name routes)) ∧
      ((∃ name c, (name, c) ∈ m ∧ routesOf outputs c = .error e) ∨
        ((∃ message, e = .err message) ∧ ∃ name c routes x, (name, c) ∈ m ∧ routesOf outputs c = .ok routes ∧ x ∈ c.servers name routes ∧ listen (up'.map Server.asked) x.asked = false))
  | [], up, up', e, h => by cases h
  | (name, c) :: rest, up, up', e, h => by
    rw [startServices_cons] at h
    split at h
    · rename_i hr
      cases h
      exact ⟨⟨[], by simp, by simp⟩, .inl ⟨name, c, List.mem_cons_self, hr⟩⟩
    · rename_i routes hr
      split at h
      · rename_i h1
        cases h
        obtain ⟨h2, new, x, after, h3, h4, h5⟩ := startServers_error h1
        refine ⟨⟨new, h4, fun y hy => ⟨name, c, routes, List.mem_cons_self, hr, ?_⟩⟩, .inr ⟨h2, name, c, routes, x, List.mem_cons_self, hr, ?_, h5⟩⟩
        · rw [h3]; exact List.mem_append_left _ hy
        · rw [h3]; simp
      · rename_i up1 h1
        split at h
        · rename_i h2
          cases h
          obtain ⟨⟨new, h3, h4⟩, h5⟩ := startServices_error h2
          have h7 := startServers_ok h1
          refine ⟨⟨c.servers name routes ++ new, by rw [h3, h7, List.append_assoc], fun y hy => ?_⟩, ?_⟩
          · rcases List.mem_append.1 hy with hy | hy
            · exact ⟨name, c, routes, List.mem_cons_self, hr, hy⟩
            · obtain ⟨n, d, r, h8, h9⟩ := h4 y hy
              exact ⟨n, d, r, List.mem_cons_of_mem _ h8, h9⟩
          · rcases h5 with ⟨n, d, h8, h9⟩ | ⟨h8, n, d, r, x, h9, h10⟩
            · exact .inl ⟨n, d, List.mem_cons_of_mem _ h8, h9⟩
            · exact .inr ⟨h8, n, d, r, x, List.mem_cons_of_mem _ h9, h10⟩
        · cases h

theorem startServices_free {listen : List String → String → Bool} {outputs : GoMap OutputApi} : ∀ {m : GoMap ServiceDecl} {up : List Server},
    (∀ name c, (name, c) ∈ m → ∃ routes, routesOf outputs c = .ok routes ∧ ∀ x ∈ c.servers name routes, ∀ taken, listen taken x.asked = true) →
      ∃ up' services, startServices listen outputs up m = (up', .ok services)
  | [], up, _ => ⟨up, [], rfl⟩
  | (name, c) :: rest, up, h => by
    obtain ⟨routes, hr, hl⟩ := h name c List.mem_cons_self
    obtain ⟨up', services, h'⟩ := startServices_free (listen := listen) (outputs := outputs) (m := rest) (up := up ++ c.servers name routes) (fun n d hd => h n d (List.mem_cons_of_mem _ hd))
    rw [startServices_cons, hr]
    simp only [startServers_free hl, h']
    exact ⟨_, _, rfl⟩

/-- A start whose listeners are all there is a start of the outputs and of the services. -/
theorem start_split (lib : StartLib) (c : Config) : start lib c = (startOutputs lib c).bind (fun outputs => instantiateMap (ServiceDecl.instantiate lib outputs) c.services) := by
  simp only [start, startOutputs]
  cases instantiateMap (ParserDecl.instantiate lib) c.parsers with
  | error e => rfl
  | ok parsers =>
    show ((instantiateMap (InputDecl.instantiate lib parsers) c.inputs).bind _) = (((instantiateMap (InputDecl.instantiate lib parsers) c.inputs).bind _).bind _)
    cases instantiateMap (InputDecl.instantiate lib parsers) c.inputs with
    | error e => rfl
    | ok inputs =>
      show ((instantiateMap (IndexDecl.instantiate lib inputs) c.indexes).bind _) = (((instantiateMap (IndexDecl.instantiate lib inputs) c.indexes).bind _).bind _)
      cases instantiateMap (IndexDecl.instantiate lib inputs) c.indexes with
      | error e => rfl
      | ok indexes => rfl

/-- Listening is not used before the services. -/
theorem startOutputs_listen (lib : StartLib) (listen : ServiceDecl → Res Unit) (c : Config) : startOutputs { lib with listen := listen } c = startOutputs lib c := by
  have e1 : ParserDecl.instantiate { lib with listen := listen } = ParserDecl.instantiate lib := rfl
  have e2 : ∀ parsers, InputDecl.instantiate { lib with listen := listen } parsers = InputDecl.instantiate lib parsers := by
    intro parsers; funext d; cases d <;> rfl
  have e3 : ∀ inputs, IndexDecl.instantiate { lib with listen := listen } inputs = IndexDecl.instantiate lib inputs := by
    intro inputs; funext d; cases d <;> rfl
  have e4 : ∀ a b d, OutputDecl.instantiate { lib with listen := listen } a b d = OutputDecl.instantiate lib a b d := by
    intro a b d; funext o; cases o <;> rfl
  simp only [startOutputs, e1, e2, e3, e4]

theorem Spec.Running.listen {config : ConfigLib} {lib : StartLib} {listen : ServiceDecl → Res Unit} {p : ParsedConfig} {texts : GoMap TextParser} {env : OutputEnv} {apis : GoMap OutputApi}
    {running : GoMap (String × List Route)} (h : Running config { lib with listen := listen } p texts env apis running) : Running config lib p texts env apis running where
  parsers := h.parsers
  functions := h.functions
  inputs := fun x hx => by
    obtain ⟨d, input, h1, h2⟩ := h.inputs x hx
    refine ⟨d, input, ?_, h2⟩
    cases hc : completedInput x <;> rw [hc] at h1 <;> exact h1
  inputNames := h.inputNames
  indexes := fun n x hx => by
    obtain ⟨i, h1, h2⟩ := h.indexes n x hx
    refine ⟨i, h1, ?_⟩
    cases hc : completedIndex config x <;> rw [hc] at h2 <;> exact h2
  indexNames := h.indexNames
  defaultIndex := h.defaultIndex
  sort := h.sort
  visit := h.visit
  outputs := h.outputs
  services := h.services
  serviceNames := h.serviceNames

end Rodb
