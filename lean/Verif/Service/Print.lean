import Verif.Service.Props

/-!
# The WebDriver service: printing (C189), and a history for the examples
-/

namespace Verif.Service

open Verif.WebDriver

theorem asFloat_asked {env : Env} (hf : Faithful env) {v : Json} {key : String} {d : Json} {dq q : Rat}
    (hd : Amount d dq) (h : Asked v key dq q) : env.asFloat (getOr v key d) = q := by
  have hn : ∀ {x : Json} {q : Rat}, Amount x q → env.asFloat x = q := by
    intro x q hx
    cases hx
    · exact hf.int _
    · exact hf.num _
  rcases h with ⟨x, hm, hx⟩ | ⟨ha, rfl⟩
  · rw [getOr_member hm, hn hx]
  · rw [getOr_absent ha, hn hd]

theorem getOr_part {v w : Json} {key : String} (h : Part v key w) : getOr v key (.obj []) = w := by
  rcases h with h | ⟨h, rfl⟩
  · exact getOr_member h
  · exact getOr_absent h

theorem asBool_asked {env : Env} (hf : Faithful env) {v : Json} {key : String} {d b : Bool}
    (h : AskedBool v key d b) : env.asBool (getOr v key (.bool d)) = b := by
  rcases h with h | ⟨h, rfl⟩
  · rw [getOr_member h, hf.bool]
  · rw [getOr_absent h, hf.bool]

theorem printed_reply {env : Env} {tr : List (Ev × Reply)} {srv : Server} (h : Runs env tr srv)
    {id : String} {s : Nat} (hid : env.parseUuid id = some s) (hs : s ∈ srv.driver.live)
    (v : Json) {p : PrintSettings} (hp : readPrint env v = some p) :
    ∃ u, (srv.driver.wins (srv.driver.objs s).current).doc = some u ∧
      handle env srv .post ["session", id, "print"] (some v) = (srv, .printed u p.job) := by
  have hr := (runs_reachable h).1
  obtain ⟨o, ho⟩ := hr.inv
  have hd := (C05_live_session_has_current_window hr s hs)
  obtain ⟨u, hu⟩ := Option.ne_none_iff_exists'.1 (hd.2.2 _ hd.2.1)
  exact ⟨u, hu, by
    simp only [handle, withSession, hid, withBody, hp, call, withWindow_eq ho hs, hu, conclude]⟩

/-- **C189 (in part).** A page is printed on the paper asked for, turned as asked for, with the
margins asked for on the sides asked for, and scaled as asked for, the amounts being centimetres;
what is not asked for is a portrait letter with margins of one centimetre, not scaled.  Nothing
changes by printing.  Backgrounds and ranges of pages: see below. -/
theorem C189_job_partial {env : Env} (hf : Faithful env) {tr : List (Ev × Reply)} {srv : Server}
    (h : Runs env tr srv) {id : String} {s : Nat} (hid : env.parseUuid id = some s)
    (hs : s ∈ srv.driver.live) (v page margin : Json) (landscape background : Bool)
    (width height top right bottom left scale : Rat)
    (ho : AskedLandscape v landscape) (hb : AskedBool v "background" false background)
    (hsc : Asked v "scale" 1 scale) (hpage : Part v "page" page) (hmargin : Part v "margin" margin)
    (hw : Asked page "width" (2159 / 100) width) (hh : Asked page "height" (2794 / 100) height)
    (ht : Asked margin "top" 1 top) (hr : Asked margin "right" 1 right)
    (hbo : Asked margin "bottom" 1 bottom) (hl : Asked margin "left" 1 left) :
    ∃ u job, (srv.driver.wins (srv.driver.objs s).current).doc = some u ∧
      handle env srv .post ["session", id, "print"] (some v) = (srv, .printed u job) ∧
      job.landscape = landscape ∧ job.scale = scale ∧ job.wanted = background ∧
      job.width = 10 * width ∧ job.height = 10 * height ∧ job.top = 10 * top ∧
      job.right = 10 * right ∧ job.bottom = 10 * bottom ∧ job.left = 10 * left := by
  have one : Amount (.int 1) 1 := .int 1
  have hread : readPrint env v = some ⟨landscape, scale, background, width, height, top, right,
      bottom, left⟩ := by
    unfold readPrint
    simp only [getOr_part hpage, getOr_part hmargin, asFloat_asked hf one hsc,
      asFloat_asked hf (.num letterWidth) hw, asFloat_asked hf (.num letterHeight) hh,
      asFloat_asked hf one ht, asFloat_asked hf one hr, asFloat_asked hf one hbo,
      asFloat_asked hf one hl, asBool_asked hf hb]
    rcases ho with ⟨ho, rfl⟩ | ⟨ho, rfl⟩ | ⟨ho, rfl⟩
    · simp only [getOr_member ho]; rfl
    · simp only [getOr_member ho]; rfl
    · simp only [getOr_absent ho]; rfl
  obtain ⟨u, hu, e⟩ := printed_reply h hid hs v hread
  refine ⟨u, _, hu, e, rfl, rfl, rfl, ?_, ?_, ?_, ?_, ?_, ?_⟩ <;>
    (simp only [PrintSettings.job]; exact Rat.mul_comm _ _)

/-- **C189.** An orientation that is neither of the two is refused, and nothing is printed. -/
theorem C189_orientation (env : Env) (srv : Server) (id : String) (s : Nat)
    (hid : env.parseUuid id = some s) (v x : Json) (hx : Member v "orientation" x)
    (h1 : x ≠ .str "landscape") (h2 : x ≠ .str "portrait") :
    handle env srv .post ["session", id, "print"] (some v) =
      (srv, .sent 400 (.obj [("value",
        .obj [("error", .str "invalid argument"), ("message", .null), ("stacktrace", .str "")])])) := by
  have hread : readPrint env v = none := by
    unfold readPrint
    simp only [getOr_member hx]
    cases x with
    | str o =>
      have a : o ≠ "landscape" := fun e => h1 (by rw [e])
      have b : o ≠ "portrait" := fun e => h2 (by rw [e])
      simp [a, b]
    | _ => rfl
  simp only [handle, withSession, hid, withBody, hread, failure]

/-- **C189.** It is false that backgrounds are left out unless asked for: they are painted whatever
is asked. -/
theorem C189_background_fails {env : Env} {tr : List (Ev × Reply)} {srv : Server}
    (h : Runs env tr srv) {id : String} {s : Nat} (hid : env.parseUuid id = some s)
    (hs : s ∈ srv.driver.live) (v : Json) (ho : Absent v "orientation") :
    ∃ u job, (handle env srv .post ["session", id, "print"] (some v)).2 = .printed u job ∧
      job.painted = true := by
  obtain ⟨p, hp⟩ : ∃ p, readPrint env v = some p := by
    unfold readPrint
    simp only [getOr_absent ho]
    exact ⟨_, rfl⟩
  obtain ⟨u, -, e⟩ := printed_reply h hid hs v hp
  exact ⟨u, _, by rw [e], rfl⟩

theorem getOr_append {l m : List (String × Json)} {key : String} {d : Json}
    (h : ∀ x ∈ m, x.1 ≠ key) : getOr (.obj (l ++ m)) key d = getOr (.obj l) key d := by
  have : m.find? (fun x => x.1 == key) = none := by
    rw [List.find?_eq_none]
    intro x hx
    simpa using h x hx
  simp only [getOr, List.find?_append, this, Option.or_none]

/-- **C189.** It is false that only the pages asked for are printed, or that pages are shrunk as
asked: the service does not look. -/
theorem C189_ranges_fails (env : Env) (srv : Server) (id : String) (l : List (String × Json))
    (ranges shrink : Json) :
    handle env srv .post ["session", id, "print"]
      (some (.obj (l ++ [("pageRanges", ranges), ("shrinkToFit", shrink)]))) =
    handle env srv .post ["session", id, "print"] (some (.obj l)) := by
  have hread : readPrint env (.obj (l ++ [("pageRanges", ranges), ("shrinkToFit", shrink)])) =
      readPrint env (.obj l) := by
    unfold readPrint
    rw [getOr_append (by simp), getOr_append (by simp), getOr_append (by simp),
      getOr_append (by simp), getOr_append (by simp)]
  simp only [handle, withBody, hread]

/-! ## A history -/

/-- One session id that reads, `a`. -/
def sampleEnv : Env where
  parseUuid := fun t => if t = "a" then some 0 else none
  uuidText := fun _ => "a"
  parseUrl := fun _ => 7
  urlText := fun _ => "file:page"
  asFloat := fun v => match v with | .int n => n | .num q => q | _ => 0
  asBool := fun v => match v with | .bool b => b | _ => false
  badUuid := "bad uuid"
  badJson := "bad json"
  badLoad := "bad load"
  greeting := "hello"
  title := fun _ => ""
  source := fun _ => ""
  screenshot := fun _ _ => ""

theorem sampleEnv_faithful : Faithful sampleEnv := ⟨fun _ => rfl, fun _ => rfl, fun _ => rfl⟩

def sampleWaiting : Server := (handle sampleEnv Server.init .post ["session"] (some (.obj []))).1

def sampleServer : Server := ((finish sampleEnv sampleWaiting 0 true).getD (Server.init, .crash)).1

/-- New Session, and the end of its load. -/
theorem sample_runs : Runs sampleEnv
    [(.request .post ["session"] (some (.obj [])), .waiting),
     (.loaded 0 true, .sent 200 (.obj [("value", .obj [("sessionId", .str "a"),
       ("capabilities", .null)])]))] sampleServer :=
  .loaded (.request (srv := Server.init) .post ["session"] (some (.obj [])) .start) rfl

/-- The session is there, its window 800 by 600. -/
theorem sample_session : sampleEnv.parseUuid "a" = some 0 ∧ 0 ∈ sampleServer.driver.live ∧
    (handle sampleEnv sampleServer .get ["session", "a", "window", "rect"] none).2 =
      rectAnswer 0 0 800 600 := ⟨rfl, by decide, rfl⟩

/-- C185: one request, one answer, none waiting; before, one request, no answer, one waiting. -/
example : requests [(Ev.request .post ["session"] (some (.obj [])), Reply.waiting)] = 1 ∧
    answers [(Ev.request .post ["session"] (some (.obj [])), Reply.waiting)] = 0 ∧
    sampleWaiting.driver.pending.length = 1 := ⟨rfl, rfl, rfl⟩

/-- C186: the session exists and the path names another; an error; a session that is not there. -/
example : addressed sampleEnv ["session", "b", "window"] ≠ some 0 ∧
    (view sampleServer.driver 0).isSome ∧
    (∃ b, (handle sampleEnv sampleServer .post ["session", "a", "url"] none).2 = .sent 400 b) ∧
    (∀ s, sampleEnv.parseUuid "a" = some s → s ∉ Server.init.driver.live) :=
  ⟨by decide, by decide, ⟨_, rfl⟩, by intro s _; simp [Server.init, State.init]⟩

/-- C187: three timeouts. -/
example : ∃ v : Json, Member v "script" (.int 5) ∧ Member v "pageLoad" (.int 6) ∧
    Member v "implicit" (.int 7) :=
  ⟨.obj [("script", .int 5), ("pageLoad", .int 6), ("implicit", .int 7)],
    ⟨_, rfl, by decide, by simp⟩, ⟨_, rfl, by decide, by simp⟩, ⟨_, rfl, by decide, by simp⟩⟩

/-- C188: a width, and nothing else. -/
example : ∃ v : Json, SetTo v "width" 800 1024 ∧ SetTo v "height" 600 600 ∧ SetTo v "x" 0 0 ∧
    SetTo v "y" 0 0 :=
  ⟨.obj [("width", .int 1024)], .inl ⟨_, rfl, by decide, by simp⟩, .inr ⟨⟨_, rfl, by decide⟩, rfl⟩,
    .inr ⟨⟨_, rfl, by decide⟩, rfl⟩, .inr ⟨⟨_, rfl, by decide⟩, rfl⟩⟩

/-- C189: A4, landscape, a margin on the left. -/
example : ∃ v page margin : Json, AskedLandscape v true ∧ AskedBool v "background" false false ∧
    Asked v "scale" 1 1 ∧ Part v "page" page ∧ Part v "margin" margin ∧
    Asked page "width" (2159 / 100) 21 ∧ Asked page "height" (2794 / 100) (297 / 10) ∧
    Asked margin "top" 1 1 ∧ Asked margin "left" 1 3 :=
  ⟨.obj [("orientation", .str "landscape"),
      ("page", .obj [("width", .int 21), ("height", .num (297 / 10))]),
      ("margin", .obj [("left", .int 3)])],
    .obj [("width", .int 21), ("height", .num (297 / 10))], .obj [("left", .int 3)],
    .inl ⟨⟨_, rfl, by decide, by simp⟩, rfl⟩, .inr ⟨⟨_, rfl, by decide⟩, rfl⟩,
    .inr ⟨⟨_, rfl, by decide⟩, rfl⟩, .inl ⟨_, rfl, by decide, by simp⟩,
    .inl ⟨_, rfl, by decide, by simp⟩, .inl ⟨_, ⟨_, rfl, by decide, by simp⟩, .int 21⟩,
    .inl ⟨_, ⟨_, rfl, by decide, by simp⟩, .num _⟩, .inr ⟨⟨_, rfl, by decide⟩, rfl⟩,
    .inl ⟨_, ⟨_, rfl, by decide, by simp⟩, .int 3⟩⟩

end Verif.Service
