/-!
# The WebDriver remote end: `vaev-webdriver/driver.cpp`

Uuids are natural numbers issued in order: `Ref::Uuid::v4()` (random) is assumed to
succeed and never to repeat.  A coroutine command is split at its only suspension
point, the page load; between two suspension points commands run atomically (the
server is single threaded).  Whether a load succeeds is chosen by the schedule.
Documents are reduced to their url, windows to document and viewport.
-/
namespace Verif.WebDriver

/-- `Dom::Window`: `_document` (its url) and `_media`'s viewport, 800 by 600 at first.
`vaev-engine/dom/window.cpp:24-30`, `style/media.cpp:196-198`. -/
structure Window where
  doc : Option Nat := none
  viewport : Int × Int := (800, 600)
deriving DecidableEq, Repr

/-- `TimeoutConfiguration` in milliseconds, with its defaults.  `protocol.cpp:61-65`. -/
structure Timeouts where
  script : Int := 30000
  pageLoad : Int := 300000
  implicit : Int := 0
deriving DecidableEq, Repr

/-- `Session`.  `driver.cpp:23-27`.  The windows map keeps only its keys; the window
objects live in `State.wins`, keyed by the handle they were created for. -/
structure Session where
  windows : List Nat := []
  current : Nat := 0
  timeouts : Timeouts := {}
deriving DecidableEq, Repr

/-- A command suspended in a page load. -/
inductive Pending
  /-- `newSessionAsync` holding its session and window objects. `driver.cpp:53-65` -/
  | newSession (s h : Nat)
  /-- `newWindowAsync` holding the session object.  `driver.cpp:176-184` -/
  | newWindow (s h : Nat)
  /-- `navigateToAsync`/`refreshAsync` holding the window object. `driver.cpp:101-118` -/
  | load (s w url : Nat)
deriving DecidableEq, Repr

structure State where
  /-- Session objects by uuid, alive as long as anybody holds them. -/
  objs : Nat → Session
  /-- Keys of `_sessions`. -/
  live : List Nat
  wins : Nat → Window
  fresh : Nat
  pending : List Pending

def State.init : State := ⟨fun _ => {}, [], fun _ => {}, 0, []⟩

inductive Err | invalidSession | noContext | notOpen | noSuchWindow | loadFailed | unsupported
deriving DecidableEq, Repr

inductive Out
  | done
  | id (n : Nat)
  | ids (l : List Nat)
  | num (n : Nat)
  | rect (r : Int × Int)
  | timeouts (t : Timeouts)
  | suspended
  | error (e : Err)
  /-- null dereference: `_document.upgrade()` on a window without document -/
  | crash
  /-- division by zero: `viewport.width / viewport.height` of `Media::changeViewport` -/
  | fault
deriving DecidableEq, Repr

inductive Cmd
  | newSession
  | deleteSession (s : Nat)
  | setTimeouts (s : Nat) (t : Timeouts)
  | getTimeouts (s : Nat)
  | navigate (s url : Nat)
  | getUrl (s : Nat)
  | refresh (s : Nat)
  | getHandle (s : Nat)
  | closeWindow (s : Nat)
  | switchTo (s h : Nat)
  | getHandles (s : Nat)
  | newWindow (s : Nat)
  | getRect (s : Nat)
  | setRect (s : Nat) (r : Int × Int)
  /-- Get Title, Get Page Source, Take Screenshot, Print Page: read the document of
  the current window. `driver.cpp:121-128, 223-227, 257-273, 279-301` -/
  | readDocument (s : Nat)
  /-- Execute Script; `known` says the body contains a recognised text. `driver.cpp:230-252` -/
  | script (s : Nat) (known : Bool)
deriving DecidableEq, Repr

def upd {α} (f : Nat → α) (n : Nat) (a : α) : Nat → α := fun m => if m = n then a else f m

/-- `Map::put`: replaces the value of an existing key, else appends. -/
def putKey (l : List Nat) (k : Nat) : List Nat := if k ∈ l then l else l ++ [k]

/-- `getSession`: `some` when the uuid is in `_sessions`.  `driver.cpp:46-50`. -/
def getSession (st : State) (s : Nat) : Option Session :=
  if s ∈ st.live then some (st.objs s) else none

/-- `Session::currentBrowsingContext`: the window key, when present. `driver.cpp:30-34`. -/
def currentContext (se : Session) : Option Nat :=
  if se.current ∈ se.windows then some se.current else none

/-- `getSession` then `currentBrowsingContext`, then the rest of the command. -/
def withWindow (st : State) (s : Nat) (k : Nat → State × Out) : State × Out :=
  match getSession st s with
  | none => (st, .error .invalidSession)
  | some se =>
    match currentContext se with
    | none => (st, .error .noContext)
    | some w => k w

/-- One command up to its end or its suspension. -/
def call (st : State) : Cmd → State × Out
  -- driver.cpp:53-59
  | .newSession =>
    ({ st with fresh := st.fresh + 2, pending := st.pending ++ [.newSession st.fresh (st.fresh + 1)] },
      .suspended)
  -- driver.cpp:68-71
  | .deleteSession s =>
    if s ∈ st.live then ({ st with live := st.live.filter (· != s) }, .done)
    else (st, .error .invalidSession)
  -- driver.cpp:85-89
  | .setTimeouts s t =>
    match getSession st s with
    | none => (st, .error .invalidSession)
    | some se => ({ st with objs := upd st.objs s { se with timeouts := t } }, .done)
  -- driver.cpp:92-95
  | .getTimeouts s =>
    match getSession st s with
    | none => (st, .error .invalidSession)
    | some se => (st, .timeouts se.timeouts)
  -- driver.cpp:101-105
  | .navigate s url => withWindow st s fun w =>
    ({ st with pending := st.pending ++ [.load s w url] }, .suspended)
  -- driver.cpp:108-112
  | .getUrl s => withWindow st s fun w =>
    match (st.wins w).doc with
    | none => (st, .crash)
    | some u => (st, .num u)
  -- driver.cpp:115-119; `document()->url()` needs a document
  | .refresh s => withWindow st s fun w =>
    match (st.wins w).doc with
    | none => (st, .crash)
    | some u => ({ st with pending := st.pending ++ [.load s w u] }, .suspended)
  -- driver.cpp:134-137
  | .getHandle s =>
    match getSession st s with
    | none => (st, .error .invalidSession)
    | some se => (st, .id se.current)
  -- driver.cpp:140-159
  | .closeWindow s =>
    match getSession st s with
    | none => (st, .error .invalidSession)
    | some se =>
      if se.current ∈ se.windows then
        let rest := se.windows.filter (· != se.current)
        match rest with
        | [] => ({ st with objs := upd st.objs s { se with windows := [] },
                           live := st.live.filter (· != s) }, .ids [])
        | w :: _ => ({ st with objs := upd st.objs s { se with windows := rest, current := w } }, .ids rest)
      else (st, .error .notOpen)
  -- driver.cpp:162-167
  | .switchTo s h =>
    match getSession st s with
    | none => (st, .error .invalidSession)
    | some se =>
      if h ∈ se.windows then ({ st with objs := upd st.objs s { se with current := h } }, .done)
      else (st, .error .noSuchWindow)
  -- driver.cpp:170-173
  | .getHandles s =>
    match getSession st s with
    | none => (st, .error .invalidSession)
    | some se => (st, .ids se.windows)
  -- driver.cpp:176-180
  | .newWindow s =>
    match getSession st s with
    | none => (st, .error .invalidSession)
    | some _ => ({ st with fresh := st.fresh + 1, pending := st.pending ++ [.newWindow s st.fresh] },
        .suspended)
  -- driver.cpp:190-194
  | .getRect s => withWindow st s fun w => (st, .rect (st.wins w).viewport)
  -- driver.cpp:197-202; style/media.cpp:140-155: a new size is divided, width by height
  | .setRect s r => withWindow st s fun w =>
    if r ≠ (st.wins w).viewport ∧ r.2 = 0 then (st, .fault) else
    ({ st with wins := upd st.wins w { st.wins w with viewport := r } }, .rect r)
  | .readDocument s => withWindow st s fun w =>
    match (st.wins w).doc with
    | none => (st, .crash)
    | some u => (st, .num u)
  -- driver.cpp:230-252: the session id is not looked at
  | .script _ known => if known then (st, .done) else (st, .error .unsupported)

/-- `about:blank` as a url. -/
def blank : Nat := 0

/-- A suspended command resumes; `ok` is the outcome of its load.
`window.cpp:48-65`: a failed load leaves `_document` alone. -/
def resume (st : State) (p : Pending) (ok : Bool) : State × Out :=
  if !ok then (st, .error .loadFailed) else
  match p with
  -- driver.cpp:61-64
  | .newSession s h =>
    ({ st with wins := upd st.wins h { st.wins h with doc := some blank }
               objs := upd st.objs s { windows := [h], current := h }
               live := putKey st.live s }, .id s)
  -- driver.cpp:181-183: the session object is the one found before the load
  | .newWindow s h =>
    ({ st with wins := upd st.wins h { st.wins h with doc := some blank }
               objs := upd st.objs s { st.objs s with windows := putKey (st.objs s).windows h, current := h } },
      .id h)
  -- window.cpp:49-54, 62
  | .load _ w url => ({ st with wins := upd st.wins w { st.wins w with doc := some url } }, .done)

/-- What the scheduler can do next: start a command, or resume the `i`-th suspended
one.  Any order of resumption is allowed. -/
inductive Event
  | start (c : Cmd)
  | finish (i : Nat) (ok : Bool)
deriving DecidableEq, Repr

/-- `none` when there is no such suspended command. -/
def step (st : State) : Event → Option (State × Out)
  | .start c => some (call st c)
  | .finish i ok =>
    match st.pending[i]? with
    | none => none
    | some p => some (resume { st with pending := st.pending.eraseIdx i } p ok)

/-- States reachable by any schedule. -/
inductive Reachable : State → Prop
  | init : Reachable State.init
  | step {st ev st' out} : Reachable st → step st ev = some (st', out) → Reachable st'

end Verif.WebDriver
