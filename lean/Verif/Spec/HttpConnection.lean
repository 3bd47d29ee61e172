import Verif.Model.HttpConnection
import Verif.Spec.HttpMessage

/-!
# What a connection of the HTTP client should do

Requests are queued on a connection; their messages should be sent one after the other, and the answers that come back should go
to the requests in the same order.
-/

namespace Verif.Spec.HttpConnection

open Verif Http Msg Conn HttpMessage

/-- A request as it is queued. -/
structure Ask where
  method : Str
  head : Except Exn Str
  expect : Bool
  body : Sending

/-- The requests that were queued, in order: the number of a request is its place. -/
def asked (es : List Event) : List Ask := es.filterMap fun
  | .queue m h x b => some ⟨m, h, x, b⟩
  | _ => none

/-- What is seen between two ends of `Close`: the parts that have ended, and the last one. -/
def cuts (os : List Obs) : List (List Obs) × List Obs :=
  os.foldl (fun x o => match o with
    | .closed => (x.1 ++ [x.2], [])
    | o => (x.1, x.2 ++ [o])) ([], [])

/-- The parts of a history, each of which has its own socket. -/
def sessions (os : List Obs) : List (List Obs) := (cuts os).1 ++ [(cuts os).2]

/-- The requests that were started, in order. -/
def begun (os : List Obs) : List Rid := os.filterMap fun
  | .started q => some q
  | _ => none

/-- The bytes that were sent. -/
def wire (os : List Obs) : Str := os.flatMap fun
  | .sent d => d
  | _ => []

/-- The bytes that were received. -/
def got (os : List Obs) : Str := os.flatMap fun
  | .received d => d
  | _ => []

/-- What the requests were told about responses that were read to their ends: the request, the status, the body. -/
def told (os : List Obs) : List (Rid × Option Nat × Str) := os.filterMap fun
  | .answered q true st _ d => some (q, st, d)
  | _ => none

/-- What a body gives when it is read up to its end, or to an exception. -/
inductive Reads (size : Nat) : Sending → Str → Prop where
  | over {s s' : Sending} : readBody size s = .ok ([], s') → Reads size s []
  | fails {s : Sending} {e : Exn} : readBody size s = .error e → Reads size s []
  | more {s s' : Sending} {d t : Str} : readBody size s = .ok (d, s') → d ≠ [] → Reads size s' t → Reads size s (d ++ t)

/-- The message of a request: its head and its body. -/
def Message (size : Nat) (a : Ask) (t : Str) : Prop := ∃ h b, a.head = .ok h ∧ Reads size a.body b ∧ t = h ++ b

/-- The methods that may be repeated without harm. -/
def repeatable : List Str := ["GET".toList, "HEAD".toList, "PUT".toList, "DELETE".toList, "OPTIONS".toList, "TRACE".toList]

/-- Nothing is being done and nothing is waiting. -/
def AtRest (S : State) : Prop := S.queue = [] ∧ S.request = none ∧ S.response = none

/-- Requests whose methods cannot be repeated are only queued when the connection is at rest. -/
def Polite (size : Nat) (es : List Event) : Prop :=
  ∀ pre m h x b post, es = pre ++ .queue m h x b :: post → m ∈ repeatable ∨ AtRest (run size pre).1

/-- An answer of the server. -/
structure Reply where
  status : Nat
  data : Str
  /-- the statuses of the informational responses before it -/
  infos : List Nat
  text : Str

/-- The reply is an answer to a request with the method. -/
def Reply.To (a : Reply) (method : Str) : Prop :=
  ∃ major minor fields, Answer method major minor a.status fields a.data a.infos a.text

/-- What a request should be told about the reply to it. -/
def Reply.tells (a : Reply) (q : Rid) : List (Rid × Option Nat × Str) :=
  a.infos.map (fun n => (q, some n, [])) ++ [(q, some a.status, a.data)]

/-- The request was told that it is over. -/
def Finished (q : Rid) (os : List Obs) : Prop := ∃ st e d, .finished q st e d ∈ os

/-- Whether there is a socket at the end of a history. -/
def isOpen (os : List Obs) : Bool := os.foldl (fun b o => match o with
  | .opened => true
  | .closed => false
  | _ => b) false

/-- Nothing has happened that lets the body of a request be sent, or that ends it: no informational response to it was read, the time
to wait for one has not passed, no other request was started and the connection was not closed. -/
def OnHold (q : Rid) (os : List Obs) : Prop :=
  .closed ∉ os ∧ (∀ p, .started p ∉ os) ∧ .timeout ∉ os ∧ ∀ n e d, 100 ≤ n ∧ n ≤ 199 → .answered q true (some n) e d ∉ os

/-- No status that a request is told about is zero, and none that is told about a response that was cut off is informational. -/
def SoundStatuses (os : List Obs) : Prop :=
  ∀ q w n e d, .answered q w (some n) e d ∈ os → n ≠ 0 ∧ (w = false → ¬ (100 ≤ n ∧ n ≤ 199))

end Verif.Spec.HttpConnection
