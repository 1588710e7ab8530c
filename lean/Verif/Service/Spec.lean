import Verif.Service.Model
import Verif.WebDriver.Props

/-!
# What is said about the WebDriver service

Histories of requests and loads, the members of JSON objects, and what a client asks for when it
sets timeouts, a window rectangle or a page to print.
-/

namespace Verif.Service

open Verif.WebDriver

/-- What happens to the service: a request comes in, or a page load ends. -/
inductive Ev where
  | request (method : Method) (path : List String) (body : Option Json)
  | loaded (i : Nat) (ok : Bool)

/-- A history: what happened and what was sent each time. -/
inductive Runs (env : Env) : List (Ev × Reply) → Server → Prop
  | start : Runs env [] Server.init
  | request {tr srv} (m : Method) (path : List String) (body : Option Json) : Runs env tr srv →
      Runs env (tr ++ [(.request m path body, (handle env srv m path body).2)])
        (handle env srv m path body).1
  | loaded {tr srv i ok srv' r} : Runs env tr srv → finish env srv i ok = some (srv', r) →
      Runs env (tr ++ [(.loaded i ok, r)]) srv'

/-- The requests of a history. -/
def requests (tr : List (Ev × Reply)) : Nat :=
  (tr.filter fun x => match x.1 with | .request .. => true | .loaded .. => false).length

/-- The answers of a history. -/
def answers (tr : List (Ev × Reply)) : Nat :=
  (tr.filter fun x => match x.2 with | .waiting | .crash => false | _ => true).length

/-- An answer in the form of the protocol: a value, or an error with its three members. -/
inductive Proper : Reply → Prop
  | value (v : Json) : Proper (.sent 200 (.obj [("value", v)]))
  | pdf (u : Nat) (j : Job) : Proper (.printed u j)
  | error (msg : String) : Proper (.sent 400 (.obj [("value",
      .obj [("error", .str msg), ("message", .null), ("stacktrace", .str "")])]))

/-- The session a path names. -/
def addressed (env : Env) : List String → Option Nat
  | "session" :: id :: _ => env.parseUuid id
  | _ => none

/-- The value is an object, each name in it is there once, and this is one of its members. -/
def Member (v : Json) (key : String) (x : Json) : Prop :=
  ∃ l, v = .obj l ∧ (l.map Prod.fst).Nodup ∧ (key, x) ∈ l

/-- The value is an object without a member of that name. -/
def Absent (v : Json) (key : String) : Prop := ∃ l, v = .obj l ∧ key ∉ l.map Prod.fst

/-- The value asks for `new` where there was `old`: it says so, or says nothing of it. -/
def SetTo (v : Json) (key : String) (old new : Int) : Prop :=
  Member v key (.int new) ∨ (Absent v key ∧ new = old)

/-- A number of JSON. -/
inductive Amount : Json → Rat → Prop
  | int (n : Int) : Amount (.int n) n
  | num (q : Rat) : Amount (.num q) q

/-- The value says `q`, or says nothing and `q` is the default. -/
def Asked (v : Json) (key : String) (default q : Rat) : Prop :=
  (∃ x, Member v key x ∧ Amount x q) ∨ (Absent v key ∧ q = default)

/-- The same of a truth value. -/
def AskedBool (v : Json) (key : String) (default b : Bool) : Prop :=
  Member v key (.bool b) ∨ (Absent v key ∧ b = default)

/-- The object under a name, empty when there is none. -/
def Part (v : Json) (key : String) (w : Json) : Prop :=
  Member v key w ∨ (Absent v key ∧ w = .obj [])

/-- The orientation asked for. -/
def AskedLandscape (v : Json) (b : Bool) : Prop :=
  (Member v "orientation" (.str "landscape") ∧ b = true) ∨
  (Member v "orientation" (.str "portrait") ∧ b = false) ∨ (Absent v "orientation" ∧ b = false)

/-- Karm's conversions give numbers and truth values as they are. -/
structure Faithful (env : Env) : Prop where
  int : ∀ n : Int, env.asFloat (.int n) = n
  num : ∀ q, env.asFloat (.num q) = q
  bool : ∀ b, env.asBool (.bool b) = b

/-- The rectangle of a window, as answered. -/
def rectAnswer (x y w h : Int) : Reply :=
  .sent 200 (.obj [("value",
    .obj [("x", .num x), ("y", .num y), ("width", .num w), ("height", .num h)])])

/-- The timeouts of a session, as answered. -/
def timeoutsAnswer (script pageLoad implicit : Int) : Reply :=
  .sent 200 (.obj [("value",
    .obj [("script", .int script), ("pageLoad", .int pageLoad), ("implicit", .int implicit)])])

def nullAnswer : Reply := .sent 200 (.obj [("value", .null)])

end Verif.Service
