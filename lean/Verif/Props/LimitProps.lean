import Verif.Props.SameFilterProps
import Verif.Props.ServiceProps
/-
  C46 and C50, exactly: the answer for every limit, and the body for all data.
-/
namespace Rodb
open Spec

/-- **C46**, for every limit: the answer has the records of the window below 2^63, and none from 2^63 on. Missing for the full C46: limits from 2^63 on are not
honoured, see `C46_false`. -/
theorem C46_every_limit_partial (env : OutputEnv) (c : ArrayConfig) (params : GoMap Bytes) (input : Input) (records : List Rec)
    (sat : String → String → Value → Rec → Bool) (acceptable : String → String → Value → Prop)
    (hin : mapGet env.inputs c.input = some input) (hdata : OutputData env input records sat acceptable)
    (conditions : List Condition) (hreads : Reads env (givenParameters c.parameters params) conditions) (hans : Answerable env acceptable conditions)
    (limit offset : Nat) (hlimit : AskedLimit c.limit params limit) (hoffset : AskedOffset c.offsetParameter params offset) (hint : min limit c.limit.max < 2^64) :
    (min limit c.limit.max < 2^63 → ListsRecords env c.relationships (((matching records sat conditions).drop offset).take (min limit c.limit.max)) (handleArray env c params)) ∧
    (2^63 ≤ min limit c.limit.max → handleArray env c params = .data (.arr [])) := by
  refine ⟨fun hs => C42_window env c params input records sat acceptable hin hdata conditions hreads hans limit offset hlimit hoffset hs, fun hbig => ?_⟩
  obtain ⟨kept, filters, its, h0, h1, h2, h3⟩ := array_positions_kept hdata hreads hans.index hans.acceptable
  obtain ⟨st, h4, h5⟩ := skipRows_gives offset its _ h3
  have h6 : (intOfUint (min limit c.limit.max)).toNat = 0 := by
    simp only [intOfUint, if_neg (Nat.not_lt.2 hbig)]
    omega
  simp only [handleArray, getLimit_spec hlimit, getOffset_spec hoffset, h1, hin, h2, h4, h6]
  rw [readRows_gives _ _ _ _ _ h5]
  rfl

/-- A limit of 2^63 gives nothing, one less gives all the records. -/
example : ∃ m, newMap OutputExample.cfg OutputExample.input = .ok m ∧
    ∀ visit : List Nat → {α : Type} → List α → List α, (∀ path α (l : List α), (visit path l).Perm l) →
      handleArray (OutputExample.env m visit) { OutputExample.array with limit := { default := 2^63, max := 2^63, parameter := "limit" } } [] = .data (.arr []) ∧
      handleArray (OutputExample.env m visit) { OutputExample.array with limit := { default := 2^63 - 1, max := 2^63, parameter := "limit" } } [] =
        .data (.arr (OutputExample.recs.map (fun r => .obj (OutputExample.shown r)))) := by
  obtain ⟨m, h1, h2⟩ := OutputExample.data
  refine ⟨m, h1, fun visit hv => ⟨?_, ?_⟩⟩
  · exact (C46_every_limit_partial (OutputExample.env m visit) { OutputExample.array with limit := { default := 2^63, max := 2^63, parameter := "limit" } } [] _ _ _ _
      (show _ = some OutputExample.input from rfl) (h2 visit hv) [] trivial ⟨by simp, by simp, by simp⟩ (2^63) 0 (.inl ⟨rfl, rfl⟩) (.inl ⟨rfl, rfl⟩) (by decide)).2 (by decide)
  · have h := (C46_every_limit_partial (OutputExample.env m visit) { OutputExample.array with limit := { default := 2^63 - 1, max := 2^63, parameter := "limit" } } [] _ _ _ _
      (show _ = some OutputExample.input from rfl) (h2 visit hv) [] trivial ⟨by simp, by simp, by simp⟩ (2^63 - 1) 0 (.inl ⟨rfl, rfl⟩) (.inl ⟨rfl, rfl⟩) (by decide)).1 (by decide)
    have := lists_plain h OutputExample.shown (fun r hr => OutputExample.shown_all r (List.mem_filter.1 (List.mem_of_mem_drop (List.mem_of_mem_take hr))).1)
    rw [this]
    rfl

/-- **C50**, exactly: a response with status 200 has an empty body if the data has a NaN or an infinity, and the JSON text of the data otherwise. Missing for the full
C50: a status that tells of it, see `C50_false`. -/
theorem C50_body_exactly_partial (lib : ServiceLib) (hlib : RegexpContract lib.find) (hjson : EncoderContract lib.encode) (routes : List Route)
    (request : Request) (hg : ∀ r ∈ routes, EnoughGroups r) (hq : GoodQuery request.query) (response : Response)
    (hresp : clientGets (handleRequest lib "application/json" routes request) = some response) (hs : response.status = 200) :
    ∃ route params payload data, FirstSuiting routes request route ∧ getParams lib route request = .ok params ∧
      ((route.output.payloadType = none ∧ payload = []) ∨ (route.output.payloadType ≠ none ∧ request.body = .ok payload)) ∧
      route.output.handle params payload = .data data ∧ mapGet response.headers "Content-Type" = some (route.output.responseType ++ "; charset=UTF-8") ∧
      (HasNonFinite data → response.body = []) ∧ (¬ HasNonFinite data → lib.encode data = .ok response.body ∧ response.body ≠ []) := by
  have key := C51_statuses_partial lib hlib routes request hg hq
  dsimp only at key
  rcases first_or_none routes request with ⟨route, hf⟩ | hn
  · obtain ⟨k1, k2⟩ := key.2 route hf
    have hm := getMatchingRoute_first hlib hf
    have hpay : (∃ payload, (route.output.payloadType = none ∧ payload = []) ∨ (route.output.payloadType ≠ none ∧ request.body = .ok payload)) ∨
        (route.output.payloadType ≠ none ∧ ∃ e, request.body = .error e) := by
      by_cases h : route.output.payloadType = none
      · exact .inl ⟨[], .inl ⟨h, rfl⟩⟩
      · cases hb : request.body with
        | ok b => exact .inl ⟨b, .inr ⟨h, rfl⟩⟩
        | error e => exact .inr ⟨h, e, rfl⟩
    rcases hpay with ⟨payload, hp⟩ | ⟨hp, e, he⟩
    · obtain ⟨params, h1, h2, _⟩ := k2 payload hp
      rw [hresp] at h2
      have hpl : getPayload route request = .ok payload := by
        rcases hp with ⟨h1, rfl⟩ | ⟨h1, h2⟩
        · simp [getPayload, h1]
        · simp [getPayload, h1, h2]
      cases ha : route.output.handle params payload with
      | data v =>
        simp only [handleRequest, hm, serveRoute, hpl, h1, ha, sendAnswer] at hresp
        refine ⟨route, params, payload, v, hf, h1, hp, ha, ?_, ?_, ?_⟩
        · cases hv : lib.encode v with
          | ok text => rw [hv] at hresp; cases hresp; rfl
          | error e => rw [hv] at hresp; cases hresp; rfl
        · intro hn
          obtain ⟨m, hv⟩ := (hjson v).1 hn
          rw [hv] at hresp
          cases hresp
          rfl
        · intro hfin
          obtain ⟨text, ht, hne⟩ := (hjson v).2 hfin
          rw [ht] at hresp
          cases hresp
          exact ⟨by simpa [writeResponse] using ht, by simpa [writeResponse] using hne⟩
      | notFound => rw [ha] at h2; simp [statusFor, hs] at h2
      | error e => rw [ha] at h2; cases e <;> simp [statusFor, hs] at h2
    · simp only [handleRequest, hm, serveRoute, getPayload, if_pos hp, he] at hresp
      cases e with
      | err m =>
        cases hresp
        have h5 : (500 : Nat) = 200 := hs
        omega
      | panic m => cases hresp
      | diverge => cases hresp
  · obtain ⟨⟨r, h1, h2⟩, _⟩ := key.1 hn
    rw [hresp] at h1
    cases h1
    omega

/-- A route and a request that meet its hypotheses; with data that has a NaN the response is that of `C50_false`. -/
example : (∀ r ∈ [ServiceExample.allRoute (arrayApi ServiceExample.nanEnv (ServiceExample.tagArray []) [])], EnoughGroups r) ∧ GoodQuery ServiceExample.allRequest.query :=
  ⟨fun r hr => by cases List.mem_singleton.1 hr; exact Nat.zero_le _, by decide, by decide⟩

end Rodb
