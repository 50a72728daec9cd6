import Verif.Proofs.Url
import Verif.Props.RunningProps
/-
  C106: the URL of a request.
-/
namespace Rodb
open Spec

theorem queryText_good {pairs : List (String × Bytes)} {text : Bytes} (h : QueryText pairs text) : ∀ b ∈ text, 32 < b.toNat ∧ b.toNat ≠ 127 := by
  have pair : ∀ {name : String} {value text : Bytes}, PairText name value text → ∀ b ∈ text, 32 < b.toNat ∧ b.toNat ≠ 127 := by
    intro name value text h b hb
    cases h with
    | value hn hv =>
      simp only [List.mem_append, List.mem_cons] at hb
      rcases hb with hb | rfl | hb
      · exact urlText_good hn b hb
      · decide
      · exact urlText_good hv b hb
    | name hn _ => exact urlText_good hn b hb
  induction h with
  | none => simp
  | last h => exact pair h
  | more h _ ih =>
    intro b hb
    simp only [List.mem_append, List.mem_cons] at hb
    rcases hb with hb | rfl | hb
    · exact pair h b hb
    · decide
    · exact ih b hb
  | blank _ ih =>
    intro b hb
    rcases List.mem_cons.1 hb with rfl | hb
    · decide
    · exact ih b hb

/-- A target that is written for a path and parameters is read as this path and these parameters. -/
theorem readTarget_text {path : List Char} {pairs : List (String × Bytes)} {text : Bytes} (h : TargetText path pairs text) (hslash : text.head? = some 47) (old : Bool) :
    readTarget old text = .read path (pairs.foldl (fun m p => mapSet m p.1 ((mapGet m p.1).getD [] ++ [p.2])) []) := by
  have no63 : ∀ {path : List Char} {text : Bytes}, PathText path text → (63 : UInt8) ∉ text := fun h => urlText_not h (by simp) (by decide) (by decide) (by
    intro n h
    unfold IsHex at h
    simp at h)
  have bad : ∀ {t : Bytes}, (∀ b ∈ t, 32 < b.toNat ∧ b.toNat ≠ 127) → t.any (fun b => b.toNat < 32 || b = 127) = false := by
    intro t h
    rw [List.any_eq_false]
    intro b hb hc
    simp only [Bool.or_eq_true, decide_eq_true_eq] at hc
    rcases hc with hc | rfl
    · have := (h b hb).1; omega
    · exact absurd (h _ hb).2 (by decide)
  have dec : decodeUtf8 (utf8 path) = some (String.ofList path) := by
    have := decodeUtf8_utf8 (String.ofList path)
    rwa [String.toList_ofList] at this
  unfold readTarget
  cases h with
  | path hp =>
    rw [bad (urlText_good hp), cutBytes_none (no63 hp), unescape_of hp (by simp)]
    simp only [Bool.false_eq_true, if_false, hslash, ne_eq, not_true, dec, String.toList_ofList]
    rfl
  | @query text _ query hp hq =>
    rw [bad (by
        intro b hb
        simp only [List.mem_append, List.mem_cons] at hb
        rcases hb with hb | rfl | hb
        · exact urlText_good hp b hb
        · decide
        · exact queryText_good hq b hb), cutBytes_at (no63 hp), unescape_of hp (by simp)]
    simp only [Bool.false_eq_true, if_false, hslash, ne_eq, not_true, dec, String.toList_ofList, parseQuery, queryText_read hq old]

theorem valuesOf_head (name : String) : ∀ (pairs : List (String × Bytes)), (valuesOf pairs name).head? = pairs.lookup name
  | [] => rfl
  | (k, v) :: pairs => by
    rw [valuesOf_cons, List.lookup_cons]
    by_cases h : k = name
    · subst h; simp
    · have : (name == k) = false := by simpa using fun e => h e.symm
      rw [if_neg h, this, valuesOf_head name pairs]

/-- **C106** However a path and parameters are written in the URL of a request, the program answers the request with this path, in which every parameter has the first value that is given
for it. C53, C68, C69, C79 and what follows from them say what is answered. -/
theorem C106_url_written (lib : ServiceLib) (errorsType : String) (routes : List Route) (old : Bool) (visit : GoMap (List Bytes) → GoMap (List Bytes)) (hvisit : ∀ m, (visit m).Perm m)
    (method contentType : String) (body : Res Bytes) (path : List Char) (pairs : List (String × Bytes)) (target : Bytes) (htarget : TargetText path pairs target)
    (hslash : target.head? = some 47) :
    ∃ request : Request, serveTarget lib errorsType routes old visit method contentType target body = clientGets (handleRequest lib errorsType routes request) ∧
      request.method = method ∧ request.contentType = contentType ∧ request.body = body ∧ request.path = path ∧ GoodQuery request.query ∧
      ∀ name, queryValue request.query name = pairs.lookup name := by
  have hread := readTarget_text htarget hslash old
  refine ⟨_, by rw [serveTarget, hread], rfl, rfl, rfl, rfl, ?_⟩
  have hgood : GoodQuery (pairs.foldl (fun m p => mapSet m p.1 ((mapGet m p.1).getD [] ++ [p.2])) []) := by
    have : ∀ (pairs : List (String × Bytes)) (m : GoMap (List Bytes)), GoodQuery m → GoodQuery (pairs.foldl (fun m p => mapSet m p.1 ((mapGet m p.1).getD [] ++ [p.2])) m) := by
      intro pairs
      induction pairs with
      | nil => exact fun m h => h
      | cons p pairs ih => exact fun m h => ih _ (goodQuery_set h _ (by simp))
    exact this _ _ ⟨by simp, by simp⟩
  have hperm := hvisit (pairs.foldl (fun m p => mapSet m p.1 ((mapGet m p.1).getD [] ++ [p.2])) [])
  have hgood' : GoodQuery (visit (pairs.foldl (fun m p => mapSet m p.1 ((mapGet m p.1).getD [] ++ [p.2])) [])) :=
    ⟨(hperm.map (·.1)).nodup_iff.2 hgood.1, fun q hq => hgood.2 q (hperm.mem_iff.1 hq)⟩
  refine ⟨hgood', fun name => ?_⟩
  rw [queryValue, mapGet_perm hperm hgood'.1, foldPairs_get, ← valuesOf_head]
  split
  · next h => rw [h]; rfl
  · rfl

/-- **C106** Every path that begins with a slash, and every list of parameters, can be written. -/
theorem C106_writable (path : List Char) (pairs : List (String × Bytes)) : ∃ target, TargetText ('/' :: path) pairs target ∧ target.head? = some 47 := by
  have hex : ∀ n, n < 16 → ∃ x, IsHex x n := by
    intro n hn
    have : ∀ n : Fin 16, ∃ x : UInt8, IsHex x n.val := by
      intro n
      refine ⟨UInt8.ofNat (if n.val < 10 then 48 + n.val else 87 + n.val), ?_⟩
      unfold IsHex
      have := n.isLt
      split <;> simp <;> omega
    exact this ⟨n, hn⟩
  have write : ∀ (plus : Bool) (special bytes : Bytes), ∃ text, UrlText plus special bytes text := by
    intro plus special bytes
    induction bytes with
    | nil => exact ⟨_, .done⟩
    | cons b bytes ih =>
      obtain ⟨text, h⟩ := ih
      obtain ⟨x, hx⟩ := hex (b.toNat / 16) (by have := b.toNat_lt; omega)
      obtain ⟨y, hy⟩ := hex (b.toNat % 16) (by omega)
      exact ⟨_, .escaped hx hy h⟩
  have query : ∃ text, QueryText pairs text := by
    induction pairs with
    | nil => exact ⟨_, .none⟩
    | cons p pairs ih =>
      obtain ⟨t, ht⟩ := ih
      obtain ⟨n, hn⟩ := write true [38, 59, 43, 35, 61] (utf8 p.1.toList)
      obtain ⟨v, hv⟩ := write true [38, 59, 43, 35] p.2
      exact ⟨_, .more (.value hn hv) ht⟩
  obtain ⟨q, hq⟩ := query
  obtain ⟨t, ht⟩ := write false [63, 35] (utf8 path)
  have hp : PathText ('/' :: path) (47 :: t) := UrlText.plain (b := 47) (by decide) (by decide) (by decide) (by decide) ht
  exact ⟨_, .query hp hq, rfl⟩

/-- **C106** A request whose URL begins with a slash and has a control character, or a `%` in its path that two hexadecimal digits do not follow, is refused with the status 400; others are not. -/
theorem C106_refused_partial (old : Bool) (path query target : Bytes) (htarget : (target = path ∧ query = []) ∨ target = path ++ 63 :: query) (hpath : 63 ∉ path) (hslash : target.head? = some 47) :
    readTarget old target = .bad ↔ (∃ b ∈ target, b.toNat < 32 ∨ b = 127) ∨ ¬ GoodEscapes path := by
  have hcut : (cutBytes 63 target).1 = path := by
    rcases htarget with ⟨rfl, _⟩ | rfl
    · rw [cutBytes_none hpath]
    · rw [cutBytes_at hpath]
  unfold readTarget
  by_cases hc : target.any (fun b => b.toNat < 32 || b = 127) = true
  · rw [if_pos hc]
    refine ⟨fun _ => .inl ?_, fun _ => rfl⟩
    obtain ⟨b, h1, h2⟩ := List.any_eq_true.1 hc
    simp only [Bool.or_eq_true, decide_eq_true_eq] at h2
    exact ⟨b, h1, h2⟩
  · rw [if_neg hc, if_neg (by simp [hslash]), hcut]
    have hno : ¬ ∃ b ∈ target, b.toNat < 32 ∨ b = 127 := by
      rintro ⟨b, h1, h2⟩
      exact hc (List.any_eq_true.2 ⟨b, h1, by simpa using h2⟩)
    rw [← unescape_none false path]
    cases hu : unescape false path with
    | none => exact ⟨fun _ => .inr rfl, fun _ => rfl⟩
    | some p =>
      refine ⟨fun h => ?_, fun h => ?_⟩
      · dsimp only at h
        split at h <;> cases h
      · rcases h with h | h
        · exact absurd h hno
        · cases h

/-- A parameter that cannot be read. -/
theorem queryPair_bad {part : Bytes} (h : ¬ GoodEscapes part) (old : Bool) : queryPair old part = none := by
  unfold queryPair
  split
  · rfl
  · split
    · rfl
    · have cut : ∀ (part : Bytes), part = (cutBytes 61 part).1 ++ (cutBytes 61 part).2 ∨ part = (cutBytes 61 part).1 ++ 61 :: (cutBytes 61 part).2 := by
        intro part
        induction part with
        | nil => exact .inl rfl
        | cons b part ih =>
          rw [cutBytes]
          split
          · next e => exact .inr (by rw [e]; rfl)
          · exact ih.imp (congrArg (b :: ·)) (congrArg (b :: ·))
      have join : ∀ {x y : Bytes}, GoodEscapes x → GoodEscapes y → GoodEscapes (x ++ y) := by
        intro x y hx hy before after e
        rcases List.append_eq_append_iff.1 e with ⟨c, rfl, h⟩ | ⟨c, rfl, h⟩
        · exact hy c after h
        · cases c with
          | nil => exact hy [] after h.symm
          | cons a c =>
            simp only [List.cons_append, List.cons.injEq] at h
            obtain ⟨rfl, rfl⟩ := h
            obtain ⟨u, v, rest, m, n, rfl, h1, h2⟩ := hx before c rfl
            exact ⟨u, v, rest ++ y, m, n, rfl, h1, h2⟩
      have single : GoodEscapes [61] := by
        intro before after e
        cases before with
        | nil => simp at e
        | cons a before => simp at e
      split
      · next h1 h2 =>
        have g1 := (unescape_some true _ _ (Nat.le_refl _)).1 ⟨_, h1⟩
        have g2 := (unescape_some true _ _ (Nat.le_refl _)).1 ⟨_, h2⟩
        refine absurd ?_ h
        rcases cut part with e | e <;> rw [e]
        · exact join g1 g2
        · exact join g1 (join single g2)
      · rfl

/-- **C106 is false** of URLs with a query that cannot be read: such a parameter is ignored, as if it had not been given, wherever it is. -/
theorem C106_ignored (old : Bool) (before part after : Bytes) (hpart : ∀ b ∈ part, b ≠ 38 ∧ b ≠ 59) (hbad : ¬ GoodEscapes part) :
    parseQuery old (before ++ 38 :: (part ++ 38 :: after)) = parseQuery old (before ++ 38 :: after) := by
  unfold parseQuery
  rw [queryParts_append (text := before) (by simp), queryParts_append (text := before) (by simp), queryParts_at (part := part) (by intro b hb; simp [hpart b hb]) (by simp)]
  simp only [List.foldl_append, List.foldl_cons]
  rw [show ∀ m, addQueryPair old m part = m from fun m => by rw [addQueryPair, queryPair_bad hbad]]

/-- **C106 is false** of URLs with a query that cannot be read: `GET /all?id=%zz` is not refused but answered with the status 200 and everything, as is `GET /all`. -/
theorem C106_false (lib : ServiceLib) (hlib : RegexpContract lib.find) (old : Bool) (visit : GoMap (List Bytes) → GoMap (List Bytes)) (hvisit : ∀ m, (visit m).Perm m) :
    ¬ GoodEscapes [105, 100, 61, 37, 122, 122] ∧
    serveTarget lib "application/json" [ServiceExample.allRoute ServiceExample.output] old visit "GET" "" (utf8 "/all?id=%zz".toList) (.ok []) =
      serveTarget lib "application/json" [ServiceExample.allRoute ServiceExample.output] old visit "GET" "" (utf8 "/all".toList) (.ok []) ∧
    (serveTarget lib "application/json" [ServiceExample.allRoute ServiceExample.output] old visit "GET" "" (utf8 "/all?id=%zz".toList) (.ok [])).map Response.status = some 200 := by
  have hbad : ¬ GoodEscapes [105, 100, 61, 37, 122, 122] := by
    intro h
    obtain ⟨x, y, rest, m, n, e, h1, _⟩ := h [105, 100, 61] [122, 122] rfl
    simp only [List.cons.injEq] at e
    rw [← e.1] at h1
    unfold IsHex at h1
    simp at h1
  have key : ∀ (target query : Bytes), cutBytes 63 target = (utf8 "/all".toList, query) → target.any (fun b => b.toNat < 32 || b = 127) = false → target.head? = some 47 → parseQuery old query = [] →
      readTarget old target = .read "/all".toList [] := by
    intro target query h1 h2 h3 h4
    rw [readTarget, h2, h1, h3, h4, show unescape false (utf8 "/all".toList) = some (utf8 "/all".toList) from rfl]
    simp only [decodeUtf8_utf8, Bool.false_eq_true, if_false, ne_eq, not_true]
  have e1 := key (utf8 "/all?id=%zz".toList) [105, 100, 61, 37, 122, 122] rfl rfl rfl (by cases old <;> rfl)
  have e2 := key (utf8 "/all".toList) [] rfl rfl rfl (by cases old <;> rfl)
  have e3 : visit [] = [] := List.perm_nil.1 (hvisit [])
  refine ⟨hbad, by rw [serveTarget, serveTarget, e1, e2], ?_⟩
  rw [serveTarget, e1]
  dsimp only
  rw [e3]
  have h := (C51_statuses_partial lib hlib [ServiceExample.allRoute ServiceExample.output] ServiceExample.allRequest
    (fun r hr => by rw [List.mem_singleton.1 hr]; exact Nat.zero_le _) ⟨by decide, by decide⟩).2 _ (ServiceExample.all_suits _ rfl)
  obtain ⟨params, h1, h2, _⟩ := h.2 [] (.inl ⟨rfl, rfl⟩)
  show (clientGets (handleRequest lib "application/json" [ServiceExample.allRoute ServiceExample.output] ServiceExample.allRequest)).map Response.status = some 200
  rw [h2]
  rfl

namespace UrlExample
/-- `/a%2fé?x=1+2&x=3&&%C3%A9&y=a=%26` (the é of the path as two bytes) for the path `/a/é` and the parameters x = "1 2", x = "3", é = "", y = "a=&". -/
def target : Bytes := [47, 97, 37, 50, 102, 195, 169] ++ 63 :: (([120] ++ 61 :: [49, 43, 50]) ++ 38 :: (([120] ++ 61 :: [51]) ++ 38 :: (38 :: ([37, 67, 51, 37, 65, 57] ++ 38 :: ([121] ++ 61 :: [97, 61, 37, 50, 54])))))
def pairs : List (String × Bytes) := [("x", [49, 32, 50]), ("x", [51]), (String.singleton 'é', []), ("y", [97, 61, 38])]
theorem text : TargetText ['/', 'a', '/', 'é'] pairs target := by
  have pl : ∀ {plus : Bool} {special bytes text : Bytes} (b : UInt8), (32 < b.toNat ∧ b.toNat ≠ 127 ∧ b ≠ 37 ∧ b ∉ special) → UrlText plus special bytes text →
      UrlText plus special (b :: bytes) (b :: text) := fun b h t => .plain h.1 h.2.1 h.2.2.1 h.2.2.2 t
  refine .query (path := ['/', 'a', '/', 'é']) ?_ (.more (.value ?_ ?_) (.more (.value ?_ ?_) (.blank (.more (.name (name := String.singleton 'é') ?_ (by decide)) (.last (.value ?_ ?_))))))
  · exact pl 47 (by decide) (pl 97 (by decide) (.escaped (b := 47) (by unfold IsHex; decide) (by unfold IsHex; decide) (pl 195 (by decide) (pl 169 (by decide) .done))))
  · exact pl 120 (by decide) .done
  · exact pl 49 (by decide) (.space rfl (pl 50 (by decide) .done))
  · exact pl 120 (by decide) .done
  · exact pl 51 (by decide) .done
  · exact .escaped (b := 195) (by unfold IsHex; decide) (by unfold IsHex; decide) (.escaped (b := 169) (by unfold IsHex; decide) (by unfold IsHex; decide) .done)
  · exact pl 121 (by decide) .done
  · exact pl 97 (by decide) (pl 61 (by decide) (.escaped (b := 38) (by unfold IsHex; decide) (by unfold IsHex; decide) .done))
end UrlExample

example : ∀ old, ∃ query, readTarget old UrlExample.target = .read ['/', 'a', '/', 'é'] query ∧ mapGet query "x" = some [[49, 32, 50], [51]] :=
  fun old => ⟨_, readTarget_text UrlExample.text rfl old, by rw [foldPairs_get]; rfl⟩
/-- A semicolon separates parameters or makes them unreadable. -/
example : queryParts (fun b => b = 38 || (true && b = 59)) [97, 61, 49, 59, 98] = [[97, 61, 49], [98]] ∧ queryPair false [97, 61, 49, 59, 98] = none := ⟨rfl, rfl⟩
/-- `/a%2`, and a tabulation. -/
example : readTarget false [47, 97, 37, 50] = .bad ∧ readTarget false [47, 9] = .bad := ⟨rfl, rfl⟩

namespace UrlExample
/-- `/%62y/1?letter=%62` -/
def byTarget : Bytes := [47, 37, 54, 50, 121, 47, 49] ++ 63 :: (utf8 "letter".toList ++ 61 :: [37, 54, 50])
theorem byText : TargetText "/by/1".toList [("letter", [98])] byTarget := by
  have pl : ∀ {plus : Bool} {special bytes text : Bytes} (b : UInt8), (32 < b.toNat ∧ b.toNat ≠ 127 ∧ b ≠ 37 ∧ b ∉ special) → UrlText plus special bytes text →
      UrlText plus special (b :: bytes) (b :: text) := fun b h t => .plain h.1 h.2.1 h.2.2.1 h.2.2.2 t
  refine .query (path := "/by/1".toList) ?_ (.last (.value ?_ ?_))
  · exact pl 47 (by decide) (.escaped (b := 98) (by unfold IsHex; decide) (by unfold IsHex; decide) (pl 121 (by decide) (pl 47 (by decide) (pl 49 (by decide) .done))))
  · exact pl 108 (by decide) (pl 101 (by decide) (pl 116 (by decide) (pl 116 (by decide) (pl 101 (by decide) (pl 114 (by decide) .done)))))
  · exact .escaped (b := 98) (by unfold IsHex; decide) (by unfold IsHex; decide) .done
end UrlExample

/-- `GET /%62y/1?letter=%62` in the running program of C79: the array with the second record. -/
example (service : ServiceLib) (hlib : RegexpContract service.find) (hjson : EncoderContract service.encode) (parserLib : ParserLib) (c : Config)
    (hload : loadConfig ConfigExample.lib RunningExample.parsed = .ok c) (running) (hstart : start (RunningExample.startLib parserLib) c = .ok running) (old : Bool)
    (visit : GoMap (List Bytes) → GoMap (List Bytes)) (hv : ∀ m, (visit m).Perm m) :
    ∃ routes, mapGet running "web" = some ("application/json", routes) ∧ ∃ response,
      serveTarget service "application/json" routes old visit "GET" "" UrlExample.byTarget (.ok []) = some response ∧ response.status = 200 ∧
        service.encode (.arr [.obj [("n", .int 1), ("s", .str [98])]]) = .ok response.body := by
  obtain ⟨texts, env, apis, hrun⟩ := C78_running _ _ _ _ _ hload ⟨.refl _, .refl _, .refl _, .refl _, .refl _⟩ running hstart
  have hw := (C76_accepted _ _).1 ⟨_, hload⟩
  obtain ⟨routes, h1, hk, h2, h3⟩ := C79_list_request_partial service hlib hjson _ _ _ _ _ _ _ hrun hw RunningExample.plain_default (fun _ _ _ => .refl _)
    RunningExample.web (.head _) 0 (by decide) RunningExample.list (.head _) rfl RunningExample.csv (.head _) rfl "/by/".toList EndToEndExample.placeholders rfl
    EndToEndExample.good [.integer []] (RunningExample.placeholders parserLib) EndToEndExample.integer_route (by simp) OutputExample.recs
    (RunningExample.records parserLib _) _ _ (RunningExample.finds parserLib _) OutputExample.shown OutputExample.shown_all EndToEndExample.finite
  obtain ⟨request, r1, r2, r3, r4, r5, r6, r7⟩ := C106_url_written service "application/json" routes old visit hv "GET" "" (.ok []) _ _ _ UrlExample.byText rfl
  refine ⟨routes, h1, ?_⟩
  rw [r1]
  match routes, hk, h2, h3 with
  | route :: rest, hk, h2, h3 =>
    obtain ⟨given, h4, h5, h6⟩ := h3 request ⟨[], rest, rfl, (h2 _).2 ⟨r2, ["1".toList], ⟨⟨[], [], ['1'], rfl, by simp, .inl rfl, by simp, by
      unfold isDigitChar; decide⟩, trivial⟩, r5⟩, by simp⟩ r6
    have := EndToEndExample.one_reading (first := "/by/".toList) (suffix := []) (name := "number".toList) (text := ['1']) h4 (by
      rw [← show request.path = "/by/".toList ++ ['1'] ++ [] from r5, h5]; rfl)
    subst this
    have hp : ∀ n, mapGet (requestParameters (EndToEndExample.placeholders.map (fun p => String.ofList p.1)) [['1']] request.query) n =
        mapGet [("number", [49]), ("letter", [98])] n := by
      intro n
      rw [requestParameters_get _ _ _ r6, r7, ← mapGet_eq_lookup]
      by_cases hn : "number" = n
      · subst hn; rfl
      · simp [placeholderValue, EndToEndExample.placeholders, mapGet, hn]
    have hg : givenParameters (RunningExample.list.parameters.map (fun e => (e.1, completedParameter e.2)))
        (requestParameters (EndToEndExample.placeholders.map (fun p => String.ofList p.1)) [['1']] request.query) =
        [({ property := "n", index := "map", parser := "integer" }, [49]), ({ property := "s", index := "default", parser := "string" }, [98])] := by
      unfold givenParameters
      simp only [hp]
      rfl
    obtain ⟨kept, hkept, response, g1, g2, _, g4⟩ := h6 _ rfl [⟨"map", "n", .int 1⟩, ⟨"default", "s", .str [98]⟩] 100 0 (by rw [hg]; exact RunningExample.reads hrun)
      (fun _ _ i hi hn => (hn (RunningExample.finds_equal _ _ hi)).elim) (.inl ⟨by rw [hp]; decide, rfl⟩) (.inl ⟨by rw [hp]; decide, rfl⟩) (by decide)
    simp only [hkept.all_eq (by decide)] at g4
    exact ⟨response, g1, g2, g4⟩

end Rodb
