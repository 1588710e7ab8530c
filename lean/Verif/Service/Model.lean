import Verif.WebDriver.Model

/-!
# The WebDriver service: `vaev-webdriver/service.cpp`, `vaev-webdriver/protocol.cpp`

What turns HTTP requests into commands of the driver (`Verif.WebDriver`) and their outcomes into
HTTP answers.  A request is a method, the segments of its path and its body; a route of the form
`/session/{sessionId}/timeouts` is matched by segments (Karm's `Http::Router`, not in the
repository).  The request is handled from the moment its body has been read: the handlers have no
other suspension point than the page loads of the driver.
-/

namespace Verif.Service

open Verif.WebDriver

/-- `Serde::Value` of Karm, as read from and written to JSON. -/
inductive Json where
  | null
  | bool (b : Bool)
  | int (n : Int)
  | num (q : Rat)
  | str (s : String)
  | arr (l : List Json)
  | obj (l : List (String × Json))

/-- `Serde::Value::getOr` of Karm: the member of an object, or the default; the default too of
what is not an object. -/
def getOr (v : Json) (key : String) (d : Json) : Json :=
  match v with
  | .obj l =>
    match l.find? (fun m => m.1 == key) with
    | some m => m.2
    | none => d
  | _ => d

/-- What the service takes from Karm and from the engine: uuids and urls and their texts, the
conversions of values to numbers and to truth values, the texts of errors that are not the
driver's, the contents of the answers about documents. -/
structure Env where
  parseUuid : String → Option Nat
  uuidText : Nat → String
  parseUrl : String → Nat
  urlText : Nat → String
  asFloat : Json → Rat
  asBool : Json → Bool
  /-- Error of `Ref::Uuid::parse`. -/
  badUuid : String
  /-- Error of `readJsonAsync`. -/
  badJson : String
  /-- Error of a page load. -/
  badLoad : String
  /-- `wholesome(Sys::now().val())` -/
  greeting : String
  title : Nat → String
  source : Nat → String
  screenshot : Nat → Int × Int → String

/-- What the printer is asked for: paper and margins in millimetres (`Print::mmToAu` of Karm turns
them into pixels), and whether backgrounds are painted. -/
structure Job where
  width : Rat
  height : Rat
  landscape : Bool
  top : Rat
  right : Rat
  bottom : Rat
  left : Rat
  scale : Rat
  /-- `Print::Settings::backgroundGraphics` -/
  wanted : Bool
  /-- `showBackgroundGraphics` of the paint options, `driver.cpp:295` -/
  painted : Bool
deriving DecidableEq

/-- `PrintSettings`.  `protocol.cpp:69-83`.  `pageRanges` and `shrinkToFit` are never set. -/
structure PrintSettings where
  landscape : Bool
  scale : Rat
  background : Bool
  width : Rat
  height : Rat
  top : Rat
  right : Rat
  bottom : Rat
  left : Rat

/-- `derivePrintSettings`, and the paint options of `printPage`.  `protocol.cpp:85-100`,
`driver.cpp:292-297`. -/
def PrintSettings.job (p : PrintSettings) : Job :=
  ⟨p.width * 10, p.height * 10, p.landscape, p.top * 10, p.right * 10, p.bottom * 10, p.left * 10,
    p.scale, p.background, true⟩

inductive Method | get | post | delete
deriving DecidableEq

/-- What a client sees of a request. -/
inductive Reply where
  /-- Status code and JSON body. -/
  | sent (code : Nat) (body : Json)
  /-- The PDF of a document printed so, in base 64, under `value`, with status 200. -/
  | printed (doc : Nat) (job : Job)
  /-- `bundle://vaev-webdriver/index.html` -/
  | index
  /-- No answer yet: the command is waiting for a page. -/
  | waiting
  /-- The process is gone: missing document, division by zero. -/
  | crash
  /-- No route: what Karm's router does then is not in the repository. -/
  | unrouted

/-- The driver, and for each of its suspended commands the capabilities to answer with. -/
structure Server where
  driver : State
  caps : List Json

def Server.init : Server := ⟨State.init, []⟩

/-- `_sendSuccessAsync`.  `protocol.cpp:20-28`. -/
def success (data : Json) : Reply := .sent 200 (.obj [("value", data)])

/-- `_sendErrorAsync` as called by `ErrorHandler`.  `protocol.cpp:30-47`, `service.cpp:519-535`. -/
def failure (msg : String) : Reply :=
  .sent 400 (.obj [("value", .obj [("error", .str msg), ("message", .null), ("stacktrace", .str "")])])

/-- The texts of the driver's errors.  `driver.cpp:33, 49, 69, 145, 164, 252`. -/
def errorText (env : Env) : Err → String
  | .invalidSession => "invalid session uuid"
  | .noContext => "no current browsing context"
  | .notOpen => "browsing context no longer open"
  | .noSuchWindow => "no such window"
  | .loadFailed => env.badLoad
  | .unsupported => "unsupported operation"

/-- What the rest of a handler does with the outcome of the command. -/
def conclude (env : Env) (srv : Server) (caps : Json) (r : State × Out) (data : Out → Reply) :
    Server × Reply :=
  match r.2 with
  | .error e => ({ srv with driver := r.1 }, failure (errorText env e))
  | .crash => ({ srv with driver := r.1 }, .crash)
  | .fault => ({ srv with driver := r.1 }, .crash)
  | .suspended => (⟨r.1, srv.caps ++ [caps]⟩, .waiting)
  | o => ({ srv with driver := r.1 }, data o)

/-- Answers without data. -/
def nothing (_ : Out) : Reply := success .null

def handleData (env : Env) : Out → Reply
  | .id n => success (.str (env.uuidText n))
  | _ => success .null

def handlesData (env : Env) : Out → Reply
  | .ids l => success (.arr (l.map fun n => .str (env.uuidText n)))
  | _ => success .null

def urlData (env : Env) : Out → Reply
  | .num u => success (.str (env.urlText u))
  | _ => success .null

def textData (f : Nat → String) : Out → Reply
  | .num u => success (.str (f u))
  | _ => success .null

/-- `service.cpp:91-95` -/
def timeoutsData : Out → Reply
  | .timeouts t => success (.obj [("script", .int t.script), ("pageLoad", .int t.pageLoad),
      ("implicit", .int t.implicit)])
  | _ => success .null

/-- `service.cpp:298-303, 336-341` -/
def rectJson (x y : Int) (size : Int × Int) : Json :=
  .obj [("x", .num x), ("y", .num y), ("width", .num size.1), ("height", .num size.2)]

def rectData (x y : Int) : Out → Reply
  | .rect r => success (rectJson x y r)
  | _ => success .null

/-- `if (auto value = v.getOr(key, NONE); value.isInt()) field = value.asInt();` -/
def intOr (v : Json) (key : String) (d : Int) : Int :=
  match getOr v key .null with
  | .int n => n
  | _ => d

/-- The body of Set Timeouts.  `service.cpp:110-120`. -/
def readTimeouts (v : Json) : Timeouts :=
  ⟨intOr v "script" ({} : Timeouts).script, intOr v "pageLoad" ({} : Timeouts).pageLoad,
    intOr v "implicit" ({} : Timeouts).implicit⟩

/-- The numbers of Print: `21.59`, `27.94`.  `service.cpp:454-457`. -/
def letterWidth : Rat := 2159 / 100
def letterHeight : Rat := 2794 / 100

/-- The body of Print; `none` is the error "invalid argument".  `service.cpp:433-510`. -/
def readPrint (env : Env) (v : Json) : Option PrintSettings :=
  let settings (landscape : Bool) : PrintSettings :=
    let page := getOr v "page" (.obj [])
    let margin := getOr v "margin" (.obj [])
    { landscape := landscape
      scale := env.asFloat (getOr v "scale" (.int 1))
      background := env.asBool (getOr v "background" (.bool false))
      width := env.asFloat (getOr page "width" (.num letterWidth))
      height := env.asFloat (getOr page "height" (.num letterHeight))
      top := env.asFloat (getOr margin "top" (.int 1))
      right := env.asFloat (getOr margin "right" (.int 1))
      bottom := env.asFloat (getOr margin "bottom" (.int 1))
      left := env.asFloat (getOr margin "left" (.int 1)) }
  match getOr v "orientation" (.str "portrait") with
  | .str o =>
    if o ≠ "landscape" ∧ o ≠ "portrait" then none else some (settings (!(o == "portrait")))
  | _ => none

/-- `contains` of Karm: one text occurs in the other. -/
def contains (pat : List Char) : List Char → Bool
  | [] => pat.isEmpty
  | c :: cs => pat.isPrefixOf (c :: cs) || contains pat cs

def contextSize : String :=
  "return [window.outerWidth - window.innerWidth,\n                       window.outerHeight - window.innerHeight];"
def mainThread : String := "document.title = 'MainThread'"
def testWait : String := "const initialized = !!window.__wptrunner_url;"

/-- `executeScript`: the value of the three scripts that are recognised.  `driver.cpp:230-254`. -/
def scriptValue (body : List Char) : Option Json :=
  if contains contextSize.toList body then some (.arr [.int 0, .int 0])
  else if contains mainThread.toList body then some (.arr [])
  else if contains testWait.toList body then
    some (.arr [.str "complete", .str "complete", .arr []])
  else none

/-- Parse the session id of the route, then go on.  `service.cpp:52` and alike. -/
def withSession (env : Env) (srv : Server) (id : String) (k : Nat → Server × Reply) : Server × Reply :=
  match env.parseUuid id with
  | none => (srv, failure env.badUuid)
  | some s => k s

/-- `co_trya$(req->readJsonAsync(ct))`: `none` is a body that is not JSON. -/
def withBody (env : Env) (srv : Server) (body : Option Json) (k : Json → Server × Reply) :
    Server × Reply :=
  match body with
  | none => (srv, failure env.badJson)
  | some v => k v

/-- A member that has to be a string.  `service.cpp:140-144, 232-236, 372-376`. -/
def withText (srv : Server) (v : Json) (key : String) (msg : String)
    (k : String → Server × Reply) : Server × Reply :=
  match getOr v key .null with
  | .str s => k s
  | _ => (srv, failure msg)

/-- Set Window Rect.  `service.cpp:311-346`. -/
def setRect (env : Env) (srv : Server) (s : Nat) (v : Json) : Server × Reply :=
  let r := call srv.driver (.getRect s)
  match r.2 with
  | .rect size =>
    let w := intOr v "width" size.1
    let h := intOr v "height" size.2
    let x := intOr v "x" 0
    let y := intOr v "y" 0
    conclude env srv .null (call srv.driver (.setRect s (w, h))) (rectData x y)
  | _ => conclude env srv .null r nothing

/-- Execute Script, Execute Async Script.  `service.cpp:365-404`. -/
def execute (env : Env) (srv : Server) (s : Nat) (v : Json) : Server × Reply :=
  withText srv v "script" "missing script key" fun body =>
    let value := scriptValue body.toList
    conclude env srv .null (call srv.driver (.script s value.isSome)) fun _ =>
      success (value.getD .null)

/-- The routes.  `createService`, `service.cpp:17-538`. -/
def handle (env : Env) (srv : Server) (method : Method) (path : List String) (body : Option Json) :
    Server × Reply :=
  match method, path with
  -- 20-23
  | .get, [] => (srv, .index)
  -- 29-46
  | .post, ["session"] => withBody env srv body fun v =>
    conclude env srv (getOr v "capabilities" .null) (call srv.driver .newSession) nothing
  -- 49-59
  | .delete, ["session", id] => withSession env srv id fun s =>
    conclude env srv .null (call srv.driver (.deleteSession s)) nothing
  -- 62-78
  | .get, ["status"] => (srv, success (.obj [("ready", .bool true), ("message", .str env.greeting)]))
  -- 84-102
  | .get, ["session", id, "timeouts"] => withSession env srv id fun s =>
    conclude env srv .null (call srv.driver (.getTimeouts s)) timeoutsData
  -- 105-127
  | .post, ["session", id, "timeouts"] => withSession env srv id fun s =>
    withBody env srv body fun v =>
      conclude env srv .null (call srv.driver (.setTimeouts s (readTimeouts v))) nothing
  -- 133-151
  | .post, ["session", id, "url"] => withSession env srv id fun s =>
    withBody env srv body fun v => withText srv v "url" "missing url key" fun url =>
      conclude env srv .null (call srv.driver (.navigate s (env.parseUrl url))) nothing
  -- 154-164
  | .get, ["session", id, "url"] => withSession env srv id fun s =>
    conclude env srv .null (call srv.driver (.getUrl s)) (urlData env)
  -- 167-177
  | .post, ["session", id, "refresh"] => withSession env srv id fun s =>
    conclude env srv .null (call srv.driver (.refresh s)) nothing
  -- 180-190
  | .get, ["session", id, "title"] => withSession env srv id fun s =>
    conclude env srv .null (call srv.driver (.readDocument s)) (textData env.title)
  -- 196-206
  | .get, ["session", id, "window"] => withSession env srv id fun s =>
    conclude env srv .null (call srv.driver (.getHandle s)) (handleData env)
  -- 209-223
  | .delete, ["session", id, "window"] => withSession env srv id fun s =>
    conclude env srv .null (call srv.driver (.closeWindow s)) (handlesData env)
  -- 226-244
  | .post, ["session", id, "window"] => withSession env srv id fun s =>
    withBody env srv body fun v => withText srv v "handle" "missing handle key" fun t =>
      match env.parseUuid t with
      | none => (srv, failure env.badUuid)
      | some h => conclude env srv .null (call srv.driver (.switchTo s h)) nothing
  -- 247-262
  | .get, ["session", id, "window", "handles"] => withSession env srv id fun s =>
    conclude env srv .null (call srv.driver (.getHandles s)) (handlesData env)
  -- 265-283
  | .post, ["session", id, "window", "new"] => withSession env srv id fun s =>
    conclude env srv .null (call srv.driver (.newWindow s)) nothing
  -- 289-308
  | .get, ["session", id, "window", "rect"] => withSession env srv id fun s =>
    conclude env srv .null (call srv.driver (.getRect s)) (rectData 0 0)
  -- 311-346
  | .post, ["session", id, "window", "rect"] => withSession env srv id fun s =>
    withBody env srv body fun v => setRect env srv s v
  -- 352-362
  | .get, ["session", id, "source"] => withSession env srv id fun s =>
    conclude env srv .null (call srv.driver (.readDocument s)) (textData env.source)
  -- 365-383
  | .post, ["session", id, "execute", "sync"] => withSession env srv id fun s =>
    withBody env srv body fun v => execute env srv s v
  -- 386-404
  | .post, ["session", id, "execute", "async"] => withSession env srv id fun s =>
    withBody env srv body fun v => execute env srv s v
  -- 410-420; the size of the picture is that of the viewport
  | .get, ["session", id, "screenshot"] => withSession env srv id fun s =>
    conclude env srv .null (call srv.driver (.readDocument s)) (textData fun u =>
      env.screenshot u ((call srv.driver (.getRect s)).2 |> fun o => match o with
        | .rect r => r
        | _ => (0, 0)))
  -- 426-517
  | .post, ["session", id, "print"] => withSession env srv id fun s =>
    withBody env srv body fun v =>
      match readPrint env v with
      | none => (srv, failure "invalid argument")
      | some p => conclude env srv .null (call srv.driver (.readDocument s)) fun o =>
        match o with
        | .num u => .printed u p.job
        | _ => success .null
  | _, _ => (srv, .unrouted)

/-- The end of a request that was waiting: the load of the `i`-th suspended command has ended, well
or not.  `none` when there is none.  New Session `service.cpp:33-44`; New Window `271-281`;
Navigate `147-148`; Refresh `171-172`. -/
def finish (env : Env) (srv : Server) (i : Nat) (ok : Bool) : Option (Server × Reply) :=
  match srv.driver.pending[i]?, step srv.driver (.finish i ok) with
  | some p, some r =>
    let srv' : Server := ⟨r.1, srv.caps.eraseIdx i⟩
    match r.2 with
    | .error e => some (srv', failure (errorText env e))
    | .id n =>
      match p with
      | .newSession .. => some (srv', success (.obj [("sessionId", .str (env.uuidText n)),
          ("capabilities", srv.caps[i]?.getD .null)]))
      | _ => some (srv', success (.obj [("handle", .str (env.uuidText n)), ("type", .str "window")]))
    | _ => some (srv', success .null)
  | _, _ => none

end Verif.Service
