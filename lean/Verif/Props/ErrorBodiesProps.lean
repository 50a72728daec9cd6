import Verif.Props.JsonTextProps
/-
  C84: the bodies of the responses with an error.
-/
namespace Rodb
open Spec

/-- A response with an error: its status, and a body that is the JSON text of an object with only the message. -/
def Spec.TellsError (formatFloat : Int → Bytes) (status : Nat) (message : String) (outcome : List Event × Ending) : Prop :=
  ∃ response, clientGets outcome = some response ∧ response.status = status ∧ mapGet response.headers "Content-Type" = some "application/json; charset=UTF-8" ∧
    JsonText JsonChar (WrittenNumber formatFloat) (.obj [("error", .str (utf8 message.toList))]) response.body

/-- **C84** The message in the body of an error: that no route was found, that the record was not found, or the message of the error that the output (or the reading of the body of the
request) failed with. -/
theorem C84_error_messages (formatFloat : Int → Bytes) (find : Regex → List Char → Option (List (Option (List Char)))) (hlib : RegexpContract find)
    (encode : Value → Res Bytes) (routes : List Route) (request : Request) :
    let outcome := handleRequest ⟨find, encode, errorJson⟩ "application/json" routes request
    ((∀ r ∈ routes, ¬ Suits r request) → TellsError formatFloat 404 "No matching route was found" outcome) ∧
    ∀ route, FirstSuiting routes request route →
      (∀ m, route.output.payloadType ≠ none → request.body = .error (.err m) → TellsError formatFloat 500 m outcome) ∧
      ∀ payload params, (route.output.payloadType = none ∧ payload = []) ∨ (route.output.payloadType ≠ none ∧ request.body = .ok payload) →
        getParams ⟨find, encode, errorJson⟩ route request = .ok params →
        (route.output.handle params payload = .notFound → TellsError formatFloat 404 "Record not found" outcome) ∧
        ∀ m, route.output.handle params payload = .error (.err m) → TellsError formatFloat 500 m outcome := by
  have key : ∀ (status : Nat) (message : String), TellsError formatFloat status message
      (.header "X-Powered-By" "RODB (https://rodb-io.github.io/rodb/)" :: sendErrorResponse ⟨find, encode, errorJson⟩ "application/json" status message, .returned) := by
    intro status message
    refine ⟨_, rfl, rfl, rfl, ?_⟩
    have := errorJson_text (WrittenNumber formatFloat) message
    simpa [sendErrorResponse, writeResponse] using this
  have hlib' : RegexpContract (ServiceLib.find ⟨find, encode, errorJson⟩) := hlib
  refine ⟨fun h => ?_, fun route hf => ?_⟩
  · simp only [handleRequest, getMatchingRoute_none hlib' h]
    exact key 404 _
  · have hm := getMatchingRoute_first hlib' hf
    refine ⟨fun m h1 h2 => ?_, fun payload params hp hpar => ?_⟩
    · simp only [handleRequest, hm, serveRoute, getPayload, if_pos h1, h2, sendFailure]
      exact key 500 m
    · have hpay : getPayload route request = .ok payload := by
        rcases hp with ⟨h1, rfl⟩ | ⟨h1, h2⟩
        · simp [getPayload, h1]
        · simp [getPayload, h1, h2]
      refine ⟨fun h => ?_, fun m h => ?_⟩
      · simp only [handleRequest, hm, serveRoute, hpay, hpar, h, sendAnswer]
        exact key 404 _
      · simp only [handleRequest, hm, serveRoute, hpay, hpar, h, sendAnswer, sendFailure]
        exact key 500 m

/-- Without a route, every request is told so. -/
example (formatFloat : Int → Bytes) (find : Regex → List Char → Option (List (Option (List Char)))) (hlib : RegexpContract find) (encode : Value → Res Bytes) (request : Request) :
    TellsError formatFloat 404 "No matching route was found" (handleRequest ⟨find, encode, errorJson⟩ "application/json" [] request) :=
  (C84_error_messages formatFloat find hlib encode [] request).1 (by simp)

/-- An output that fails. -/
example (formatFloat : Int → Bytes) (find : Regex → List Char → Option (List (Option (List Char)))) (hlib : RegexpContract find) (encode : Value → Res Bytes)
    (route : Route) (request : Request) (hs : Suits route request) (hp : route.output.payloadType = none) (hg : EnoughGroups route) (hq : GoodQuery request.query)
    (hh : ∀ params payload, route.output.handle params payload = .error (.err "no such file")) :
    TellsError formatFloat 500 "no such file" (handleRequest ⟨find, encode, errorJson⟩ "application/json" [route] request) := by
  obtain ⟨params, hpar⟩ := getParams_ok (lib := ⟨find, encode, errorJson⟩) hlib hg hs.2 hq
  exact (((C84_error_messages formatFloat find hlib encode [route] request).2 route ⟨[], [], rfl, hs, by simp⟩).2 [] params (.inl ⟨hp, rfl⟩) hpar).2 _ (hh _ _)

end Rodb
