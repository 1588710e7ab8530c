import Verif.Service.Lemmas

/-!
# The WebDriver service: answers, sessions, timeouts, window rectangles (C185–C188)
-/

namespace Verif.Service

open Verif.WebDriver

/-- A command ends at once with an answer or an error, waits, or brings the process down. -/
theorem conclude_reply {env : Env} {srv : Server} {caps : Json} {r : State × Out} {data : Out → Reply}
    (hp : ∀ o, Fine (data o)) :
    (r.2 = .suspended ∧ (conclude env srv caps r data).2 = .waiting) ∨
    ((r.2 = .crash ∨ r.2 = .fault) ∧ (conclude env srv caps r data).2 = .crash) ∨
    (r.2 ≠ .suspended ∧ r.2 ≠ .crash ∧ r.2 ≠ .fault ∧ Proper (conclude env srv caps r data).2) := by
  unfold conclude
  split
  · next h => exact .inr (.inr ⟨by simp [h], by simp [h], by simp [h], failure_proper _⟩)
  · next h => exact .inr (.inl ⟨.inl h, rfl⟩)
  · next h => exact .inr (.inl ⟨.inr h, rfl⟩)
  · next h => exact .inl ⟨h, rfl⟩
  · exact .inr (.inr ⟨by assumption, by assumption, by assumption, (hp _).proper⟩)

/-- A division by zero happens in Set Window Rect only. -/
theorem call_fault {st : State} {c : Cmd} (h : (call st c).2 = .fault) : ∃ s r, c = .setRect s r := by
  cases c with
  | setRect s r => exact ⟨s, r, rfl⟩
  | _ =>
    exfalso
    revert h
    simp only [call, withWindow]
    (repeat' split) <;> simp

/-- A command addressed to no session that exists. -/
theorem call_dead {st : State} {c : Cmd} {s : Nat} (hc : c.target = some s) (hs : s ∉ st.live) :
    call st c = (st, .error .invalidSession) ∨ ∃ s k, c = .script s k := by
  cases c <;> simp only [Cmd.target, reduceCtorEq, Option.some.injEq] at hc <;> subst hc <;>
    simp [call, withWindow, getSession, hs]

theorem call_crash {st : State} {c : Cmd} (h : Reachable st) : (call st c).2 ≠ .crash := by
  cases hc : c.target with
  | none => cases c <;> simp [Cmd.target] at hc; simp [call]
  | some s =>
    by_cases hs : s ∈ st.live
    · exact (C05_no_context_error h c s hc hs).2.2
    · rcases call_dead hc hs with e | ⟨s, k, rfl⟩
      · rw [e]; simp
      · cases k <;> simp [call]

/-- **C185.** Each request is answered once: in every history in which the process lives, there
are as many requests as answers sent and commands still waiting for a page. -/
theorem C185_one_answer {env : Env} {tr : List (Ev × Reply)} {srv : Server} (h : Runs env tr srv)
    (alive : ∀ x ∈ tr, x.2 ≠ .crash) :
    requests tr = answers tr + srv.driver.pending.length := by
  induction h with
  | start => rfl
  | @request tr srv m path body h ih =>
    have ih := ih fun x hx => alive x (List.mem_append_left _ hx)
    have hc : (handle env srv m path body).2 ≠ .crash :=
      alive (.request m path body, (handle env srv m path body).2) (by simp)
    have hd := handle_does env srv m path body
    generalize handle env srv m path body = res at hd hc ⊢
    generalize addressed env path = t at hd
    have hreq : requests (tr ++ [(Ev.request m path body, res.2)]) = requests tr + 1 := by
      simp [requests]
    have hans : res.2 ≠ .waiting →
        answers (tr ++ [(Ev.request m path body, res.2)]) = answers tr + 1 := by
      intro hw
      cases hr : res.2 <;> simp_all [answers]
    have hwait : res.2 = .waiting →
        answers (tr ++ [(Ev.request m path body, res.2)]) = answers tr := by
      intro hw; simp [answers, hw]
    cases hd with
    | none r t h =>
      have : r ≠ .waiting := by
        rcases h with ⟨m, rfl⟩ | rfl | ⟨-, h | rfl⟩
        · simp [failure]
        · simp
        · cases h <;> simp
        · simp
      rw [hreq, hans this, ih]
      show _ = _ + srv.driver.pending.length
      omega
    | command caps c data t ht hp hr hs =>
      rw [hreq, conclude_driver]
      have hp' := call_pending srv.driver c
      rcases conclude_reply (env := env) (srv := srv) (caps := caps) (r := call srv.driver c) hp with
        ⟨h1, h2⟩ | ⟨h1, h2⟩ | ⟨h1, -, -, h2⟩
      · obtain ⟨p, e⟩ := hp'.2 h1
        rw [hwait h2, e, ih]; simp; omega
      · exact absurd h2 hc
      · have : (conclude env srv caps (call srv.driver c) data).2 ≠ .waiting := by
          intro e; rw [e] at h2; cases h2
        rw [hans this, hp'.1 h1, ih]; omega
  | @loaded tr srv i ok srv' r h hf ih =>
    have ih := ih fun x hx => alive x (List.mem_append_left _ hx)
    obtain ⟨hi, -, ⟨out, ho⟩, hp⟩ := finish_some hf
    have h1 : requests (tr ++ [(Ev.loaded i ok, r)]) = requests tr := by simp [requests]
    have h2 : answers (tr ++ [(Ev.loaded i ok, r)]) = answers tr + 1 := by
      cases hp <;> simp [answers]
    rw [h1, h2, finish_pending ho, List.length_eraseIdx, ih]
    simp only [hi, if_true]
    omega

/-- **C185.** Whatever is sent is in the form of the protocol: a value, or an error with its three
members; and the process comes down only in Set Window Rect. -/
theorem C185_proper {env : Env} {tr : List (Ev × Reply)} {srv : Server} (h : Runs env tr srv)
    (m : Method) (path : List String) (body : Option Json) :
    Proper (handle env srv m path body).2 ∨ (handle env srv m path body).2 = .waiting ∨
    (handle env srv m path body).2 = .index ∨ (handle env srv m path body).2 = .unrouted ∨
    ((handle env srv m path body).2 = .crash ∧ m = .post ∧
      ∃ id, path = ["session", id, "window", "rect"]) := by
  have hd := handle_does env srv m path body
  generalize handle env srv m path body = res at hd ⊢
  generalize addressed env path = t at hd
  cases hd with
  | none r t h =>
    rcases h with ⟨m, rfl⟩ | rfl | ⟨-, h | rfl⟩
    · exact .inl (failure_proper _)
    · exact .inr (.inr (.inr (.inl rfl)))
    · exact .inl h
    · exact .inr (.inr (.inl rfl))
  | command caps c data t ht hp hr hs =>
    rcases conclude_reply (env := env) (srv := srv) (caps := caps) (r := call srv.driver c) hp with
      ⟨-, h2⟩ | ⟨h1 | h1, h2⟩ | ⟨-, -, -, h2⟩
    · exact .inr (.inl h2)
    · exact absurd h1 (call_crash (runs_reachable h).1)
    · exact .inr (.inr (.inr (.inr ⟨h2, hr (call_fault h1)⟩)))
    · exact .inl h2

/-- **C185.** So is what is sent when a load has ended. -/
theorem C185_loaded {env : Env} {srv srv' : Server} {i : Nat} {ok : Bool} {r : Reply}
    (h : finish env srv i ok = some (srv', r)) : Proper r := (finish_some h).2.2.2

/-- **C185.** Every load that can end has an answer. -/
theorem C185_ends (env : Env) (srv : Server) (i : Nat) (ok : Bool)
    (h : i < srv.driver.pending.length) : (finish env srv i ok).isSome := by
  have e : srv.driver.pending[i]? = some srv.driver.pending[i] := List.getElem?_eq_getElem h
  unfold finish
  simp only [step, e]
  split
  · rfl
  · split <;> rfl
  · rfl

/-- **C186.** A request changes nothing of the sessions its path does not name. -/
theorem C186_isolated {env : Env} {tr : List (Ev × Reply)} {srv : Server} (h : Runs env tr srv)
    (m : Method) (path : List String) (body : Option Json) (s : Nat)
    (hs : addressed env path ≠ some s) :
    view (handle env srv m path body).1.driver s = view srv.driver s := by
  have hd := handle_does env srv m path body
  generalize handle env srv m path body = res at hd ⊢
  cases hd with
  | none r t h => rfl
  | command caps c data t ht hp hr hs' =>
    rw [conclude_driver]
    refine C06_sessions_isolated (runs_reachable h).1 (ev := .start c)
      (out := (call srv.driver c).2) rfl s ?_
    simpa [Event.target, ht] using hs

/-- **C186.** A request answered with an error has changed nothing of any session. -/
theorem C186_errors (env : Env) (srv : Server)
    (m : Method) (path : List String) (body : Option Json) (s : Nat) (b : Json)
    (hb : (handle env srv m path body).2 = .sent 400 b) :
    view (handle env srv m path body).1.driver s = view srv.driver s := by
  have hd := handle_does env srv m path body
  generalize handle env srv m path body = res at hd hb ⊢
  generalize addressed env path = t at hd
  cases hd with
  | none r t h => rfl
  | command caps c data t ht hp hr hs =>
    rw [conclude_driver]
    have herr : ∃ e, (call srv.driver c).2 = .error e := by
      revert hb
      unfold conclude
      split
      · next e he => exact fun _ => ⟨e, he⟩
      · intro h; cases h
      · intro h; cases h
      · intro h; cases h
      · intro hb
        have := hp (call srv.driver c).2
        dsimp only at hb
        rw [hb] at this
        cases this
    obtain ⟨e, he⟩ := herr
    exact C06_errors_change_nothing (ev := .start c) (e := e)
      (show some (call srv.driver c) = some ((call srv.driver c).1, .error e) by rw [← he]) s

/-- **C186.** A request whose path names a session that does not exist, or that is no id at all,
is answered with an error and changes nothing; but for scripts, see below. -/
theorem C186_dead_partial (env : Env) (srv : Server) (m : Method) (id : String) (rest : List String)
    (body : Option Json) (hs : ∀ s, env.parseUuid id = some s → s ∉ srv.driver.live)
    (hx : ¬(m = .post ∧ ∃ how, rest = ["execute", how])) :
    (handle env srv m ("session" :: id :: rest) body).1 = srv ∧
    ((handle env srv m ("session" :: id :: rest) body).2 = .unrouted ∨
      ∃ msg, (handle env srv m ("session" :: id :: rest) body).2 =
        .sent 400 (.obj [("value",
          .obj [("error", .str msg), ("message", .null), ("stacktrace", .str "")])])) := by
  cases hid : env.parseUuid id with
  | none =>
    have hw : ∀ k, withSession env srv id k = (srv, failure env.badUuid) := fun k => by
      simp only [withSession, hid]
    generalize hp : "session" :: id :: rest = path
    unfold handle
    split
    all_goals first
      | (exfalso; simp at hp; done)
      | (injection hp with _ hp; injection hp with hp _; subst hp; rw [hw]
         exact ⟨rfl, .inr ⟨_, rfl⟩⟩)
      | exact ⟨rfl, .inl rfl⟩
  | some s =>
    have hd := handle_does env srv m ("session" :: id :: rest) body
    have ha : addressed env ("session" :: id :: rest) = some s := hid
    rw [ha] at hd
    generalize handle env srv m ("session" :: id :: rest) body = res at hd ⊢
    generalize ht : some s = t at hd
    cases hd with
    | none r t h =>
      refine ⟨rfl, ?_⟩
      rcases h with ⟨m, rfl⟩ | rfl | ⟨h, -⟩
      · exact .inr ⟨m, rfl⟩
      · exact .inl rfl
      · rw [h] at ht; cases ht
    | command caps c data t htc hp hr hx' =>
      rcases call_dead (htc.trans ht.symm) (hs s hid) with e | e
      · rw [e]
        exact ⟨rfl, .inr ⟨_, rfl⟩⟩
      · obtain ⟨h1, id', how, h2⟩ := hx' e
        injection h2 with _ h2
        injection h2 with _ h2
        exact absurd ⟨h1, how, h2⟩ hx

/-- **C186.** It is false of scripts: they are run for sessions that do not exist. -/
theorem C186_script_fails (env : Env) (srv : Server) (id how : String) (s : Nat)
    (hid : env.parseUuid id = some s) (hhow : how = "sync" ∨ how = "async") (v : Json)
    (hv : Member v "script" (.str "document.title = 'MainThread'")) :
    handle env srv .post ["session", id, "execute", how] (some v) =
      (srv, .sent 200 (.obj [("value", .arr [])])) := by
  have hval : scriptValue "document.title = 'MainThread'".toList = some (.arr []) := by
    have h1 : contains contextSize.toList "document.title = 'MainThread'".toList = false := by
      decide +kernel
    have h2 : contains mainThread.toList "document.title = 'MainThread'".toList = true := by
      decide +kernel
    simp only [scriptValue, h1, h2, if_true, Bool.false_eq_true, if_false]
  rcases hhow with rfl | rfl <;>
    simp only [handle, withSession, hid, withBody, execute, withText, getOr_member hv, hval, call,
      Option.isSome_some, if_true, conclude, success, Option.getD_some]

theorem conclude_same {env : Env} {srv : Server} {caps : Json} {r : State × Out}
    {data : Out → Reply} (h1 : r.1 = srv.driver) (h2 : r.2 ≠ .suspended) :
    (conclude env srv caps r data).1 = srv := by
  have e : ({ srv with driver := r.1 } : Server) = srv := by rw [h1]
  unfold conclude
  split <;> first | exact e | (exfalso; exact h2 (by assumption))

theorem reads_same {st : State} {c : Cmd} (h : ∃ s, c = .getTimeouts s ∨ c = .getUrl s ∨
    c = .readDocument s ∨ c = .getHandle s ∨ c = .getHandles s ∨ c = .getRect s) :
    (call st c).1 = st ∧ (call st c).2 ≠ .suspended := by
  obtain ⟨s, rfl | rfl | rfl | rfl | rfl | rfl⟩ := h <;> simp only [call, withWindow] <;>
    (repeat' split) <;> simp

/-- **C186.** A GET request changes nothing at all. -/
theorem C186_get (env : Env) (srv : Server) (path : List String) (body : Option Json) :
    (handle env srv .get path body).1 = srv := by
  have hs : ∀ (id : String) (k : Nat → Server × Reply), (∀ s, (k s).1 = srv) →
      (withSession env srv id k).1 = srv := by
    intro id k hk
    unfold withSession
    split
    · rfl
    · exact hk _
  have hc : ∀ c data, (∃ s, c = .getTimeouts s ∨ c = .getUrl s ∨ c = .readDocument s ∨
      c = .getHandle s ∨ c = .getHandles s ∨ c = .getRect s) →
      (conclude env srv .null (call srv.driver c) data).1 = srv := fun c data h =>
    conclude_same (reads_same h).1 (reads_same h).2
  unfold handle
  split <;> first
    | rfl
    | (rename_i h; cases h; done)
    | exact hs _ _ fun s => hc _ _ ⟨s, by simp⟩

/-- **C185.** It is false that errors bear the names and codes of the protocol: a session that does
not exist is 400 "invalid session uuid" and not 404 "invalid session id". -/
theorem C185_codes_fails (env : Env) (srv : Server) (id : String) (s : Nat)
    (hid : env.parseUuid id = some s) (hs : s ∉ srv.driver.live) :
    (handle env srv .get ["session", id, "timeouts"] none).2 = .sent 400 (.obj [("value",
      .obj [("error", .str "invalid session uuid"), ("message", .null), ("stacktrace", .str "")])]) := by
  simp [handle, withSession, hid, call, getSession, hs, conclude, failure, errorText]

/-! ## Timeouts -/

theorem getTimeouts_reply (env : Env) (srv : Server) (id : String) (s : Nat)
    (hid : env.parseUuid id = some s) (hs : s ∈ srv.driver.live) :
    (handle env srv .get ["session", id, "timeouts"] none).2 =
      timeoutsAnswer (srv.driver.objs s).timeouts.script (srv.driver.objs s).timeouts.pageLoad
        (srv.driver.objs s).timeouts.implicit := by
  simp [handle, withSession, hid, call, getSession, hs, conclude, timeoutsData, success,
    timeoutsAnswer]

theorem setTimeouts_reply (env : Env) (srv : Server) (id : String) (s : Nat)
    (hid : env.parseUuid id = some s) (hs : s ∈ srv.driver.live) (v : Json) :
    (handle env srv .post ["session", id, "timeouts"] (some v)).2 = nullAnswer ∧
    s ∈ (handle env srv .post ["session", id, "timeouts"] (some v)).1.driver.live ∧
    ((handle env srv .post ["session", id, "timeouts"] (some v)).1.driver.objs s).timeouts =
      readTimeouts v := by
  simp [handle, withSession, hid, withBody, call, getSession, hs, conclude, nothing, success,
    nullAnswer, upd]

/-- **C187 (in part).** When all three timeouts are given, as whole numbers, they are what is
answered from then on. -/
theorem C187_all_partial (env : Env) (srv : Server) (id : String) (s : Nat)
    (hid : env.parseUuid id = some s) (hs : s ∈ srv.driver.live) (v : Json) (a b c : Int)
    (ha : Member v "script" (.int a)) (hb : Member v "pageLoad" (.int b))
    (hc : Member v "implicit" (.int c)) :
    (handle env srv .post ["session", id, "timeouts"] (some v)).2 = nullAnswer ∧
    (handle env (handle env srv .post ["session", id, "timeouts"] (some v)).1 .get
      ["session", id, "timeouts"] none).2 = timeoutsAnswer a b c := by
  obtain ⟨h1, h2, h3⟩ := setTimeouts_reply env srv id s hid hs v
  refine ⟨h1, ?_⟩
  rw [getTimeouts_reply env _ id s hid h2, h3]
  simp only [readTimeouts, intOr, getOr_member ha, getOr_member hb, getOr_member hc]

/-- **C187.** It is false that the timeouts not given stay what they were: they are reset. -/
theorem C187_others_fails (env : Env) (srv : Server) (id : String) (s : Nat)
    (hid : env.parseUuid id = some s) (hs : s ∈ srv.driver.live) (v : Json) (c : Int)
    (ha : Absent v "script") (hb : Absent v "pageLoad") (hc : Member v "implicit" (.int c)) :
    (handle env (handle env srv .post ["session", id, "timeouts"] (some v)).1 .get
      ["session", id, "timeouts"] none).2 = timeoutsAnswer 30000 300000 c := by
  obtain ⟨h1, h2, h3⟩ := setTimeouts_reply env srv id s hid hs v
  rw [getTimeouts_reply env _ id s hid h2, h3]
  simp only [readTimeouts, intOr, getOr_absent ha, getOr_absent hb, getOr_member hc]

/-- **C187.** It is false that what is not a timeout is refused: whatever the body, an object or
not, the answer is that all is well. -/
theorem C187_invalid_fails (env : Env) (srv : Server) (id : String) (s : Nat)
    (hid : env.parseUuid id = some s) (hs : s ∈ srv.driver.live) (v : Json) :
    (handle env srv .post ["session", id, "timeouts"] (some v)).2 = nullAnswer :=
  (setTimeouts_reply env srv id s hid hs v).1

/-! ## Window rectangles -/

theorem getRect_reply {env : Env} {tr : List (Ev × Reply)} {srv : Server} (h : Runs env tr srv)
    {id : String} {s : Nat} (hid : env.parseUuid id = some s) (hs : s ∈ srv.driver.live) :
    (handle env srv .get ["session", id, "window", "rect"] none).2 =
      rectAnswer 0 0 (srv.driver.wins (srv.driver.objs s).current).viewport.1
        (srv.driver.wins (srv.driver.objs s).current).viewport.2 := by
  obtain ⟨o, ho⟩ := (runs_reachable h).1.inv
  simp [handle, withSession, hid, call, withWindow_eq ho hs, conclude, rectData, rectJson,
    rectAnswer, success]

/-- Set Window Rect on a session that exists. -/
theorem setRect_reply {env : Env} {tr : List (Ev × Reply)} {srv : Server} (h : Runs env tr srv)
    {id : String} {s : Nat} (hid : env.parseUuid id = some s) (hs : s ∈ srv.driver.live) (v : Json)
    (w0 h0 : Int) (hold : (srv.driver.wins (srv.driver.objs s).current).viewport = (w0, h0)) :
    (((intOr v "width" w0, intOr v "height" h0) ≠ (w0, h0) ∧ intOr v "height" h0 = 0) →
      (handle env srv .post ["session", id, "window", "rect"] (some v)).2 = .crash) ∧
    (¬((intOr v "width" w0, intOr v "height" h0) ≠ (w0, h0) ∧ intOr v "height" h0 = 0) →
      (handle env srv .post ["session", id, "window", "rect"] (some v)).2 =
        rectAnswer (intOr v "x" 0) (intOr v "y" 0) (intOr v "width" w0) (intOr v "height" h0) ∧
      s ∈ (handle env srv .post ["session", id, "window", "rect"] (some v)).1.driver.live ∧
      ((handle env srv .post ["session", id, "window", "rect"] (some v)).1.driver.wins
        ((handle env srv .post ["session", id, "window", "rect"] (some v)).1.driver.objs s).current).viewport =
          (intOr v "width" w0, intOr v "height" h0)) := by
  obtain ⟨o, ho⟩ := (runs_reachable h).1.inv
  constructor
  · intro hc
    simp only [handle, withSession, hid, withBody, setRect, call, withWindow_eq ho hs, hold, if_pos hc,
      conclude]
  · intro hc
    simp only [handle, withSession, hid, withBody, setRect, call, withWindow_eq ho hs, hold,
      if_neg hc, conclude, rectData, rectJson, success, rectAnswer, upd, if_true, and_self, hs]

/-- **C188 (in part).** The size given, or as much of it as is given, is the size of the window
from then on, and is what is answered; for heights that are not zero. -/
theorem C188_size_partial {env : Env} {tr : List (Ev × Reply)} {srv : Server} (h : Runs env tr srv)
    {id : String} {s : Nat} (hid : env.parseUuid id = some s) (hs : s ∈ srv.driver.live)
    (v : Json) (w0 h0 w1 h1 x1 y1 : Int)
    (hold : (handle env srv .get ["session", id, "window", "rect"] none).2 = rectAnswer 0 0 w0 h0)
    (hw : SetTo v "width" w0 w1) (hh : SetTo v "height" h0 h1) (hx : SetTo v "x" 0 x1)
    (hy : SetTo v "y" 0 y1) (hz : h1 ≠ 0) :
    (handle env srv .post ["session", id, "window", "rect"] (some v)).2 = rectAnswer x1 y1 w1 h1 ∧
    (handle env (handle env srv .post ["session", id, "window", "rect"] (some v)).1 .get
      ["session", id, "window", "rect"] none).2 = rectAnswer 0 0 w1 h1 := by
  have hv : (srv.driver.wins (srv.driver.objs s).current).viewport = (w0, h0) := by
    rw [getRect_reply h hid hs] at hold
    simp only [rectAnswer, Reply.sent.injEq, Json.obj.injEq, List.cons.injEq, Prod.mk.injEq,
      Json.num.injEq, and_true, true_and, Rat.intCast_inj] at hold
    exact Prod.ext hold.1 hold.2
  obtain ⟨e1, e2, e3⟩ := (setRect_reply h hid hs v w0 h0 hv).2 (by
    rw [intOr_set hh]; exact fun e => hz e.2)
  rw [intOr_set hw, intOr_set hh] at e1 e3
  rw [intOr_set hx, intOr_set hy] at e1
  refine ⟨e1, ?_⟩
  rw [getRect_reply (.request .post ["session", id, "window", "rect"] (some v) h) hid e2, e3]

/-- **C188.** It is false that a window is where it was put: the answer says so, but the next one
says zero. -/
theorem C188_position_fails {env : Env} {tr : List (Ev × Reply)} {srv : Server} (h : Runs env tr srv)
    {id : String} {s : Nat} (hid : env.parseUuid id = some s) (hs : s ∈ srv.driver.live)
    (v : Json) (w0 h0 x1 y1 : Int)
    (hold : (handle env srv .get ["session", id, "window", "rect"] none).2 = rectAnswer 0 0 w0 h0)
    (hw : Absent v "width") (hh : Absent v "height") (hx : Member v "x" (.int x1))
    (hy : Member v "y" (.int y1)) (hz : h0 ≠ 0) :
    (handle env srv .post ["session", id, "window", "rect"] (some v)).2 = rectAnswer x1 y1 w0 h0 ∧
    (handle env (handle env srv .post ["session", id, "window", "rect"] (some v)).1 .get
      ["session", id, "window", "rect"] none).2 = rectAnswer 0 0 w0 h0 :=
  C188_size_partial h hid hs v w0 h0 w0 h0 x1 y1 hold (.inr ⟨hw, rfl⟩) (.inr ⟨hh, rfl⟩)
    (.inl hx) (.inl hy) hz

/-- **C188.** A height of zero brings the process down, with all its sessions. -/
theorem C188_zero_fails {env : Env} {tr : List (Ev × Reply)} {srv : Server} (h : Runs env tr srv)
    {id : String} {s : Nat} (hid : env.parseUuid id = some s) (hs : s ∈ srv.driver.live)
    (v : Json) (w0 h0 : Int) (hz : h0 ≠ 0)
    (hold : (handle env srv .get ["session", id, "window", "rect"] none).2 = rectAnswer 0 0 w0 h0)
    (hh : Member v "height" (.int 0)) :
    (handle env srv .post ["session", id, "window", "rect"] (some v)).2 = .crash := by
  have hv : (srv.driver.wins (srv.driver.objs s).current).viewport = (w0, h0) := by
    rw [getRect_reply h hid hs] at hold
    simp only [rectAnswer, Reply.sent.injEq, Json.obj.injEq, List.cons.injEq, Prod.mk.injEq,
      Json.num.injEq, and_true, true_and, Rat.intCast_inj] at hold
    exact Prod.ext hold.1 hold.2
  refine (setRect_reply h hid hs v w0 h0 hv).1 ?_
  rw [intOr_set (.inl hh)]
  exact ⟨fun e => hz (Prod.mk.inj e).2.symm, rfl⟩

/-- **C188.** It is false that a size that is not a whole number is refused or taken: it is
ignored, and the answer is that all is well. -/
theorem C188_fraction_fails {env : Env} {tr : List (Ev × Reply)} {srv : Server} (h : Runs env tr srv)
    {id : String} {s : Nat} (hid : env.parseUuid id = some s) (hs : s ∈ srv.driver.live)
    (w0 h0 : Int) (q : Rat) (hz : h0 ≠ 0)
    (hold : (handle env srv .get ["session", id, "window", "rect"] none).2 = rectAnswer 0 0 w0 h0) :
    (handle env srv .post ["session", id, "window", "rect"] (some (.obj [("width", .num q)]))).2 =
      rectAnswer 0 0 w0 h0 := by
  have hv : (srv.driver.wins (srv.driver.objs s).current).viewport = (w0, h0) := by
    rw [getRect_reply h hid hs] at hold
    simp only [rectAnswer, Reply.sent.injEq, Json.obj.injEq, List.cons.injEq, Prod.mk.injEq,
      Json.num.injEq, and_true, true_and, Rat.intCast_inj] at hold
    exact Prod.ext hold.1 hold.2
  have hw : intOr (.obj [("width", .num q)]) "width" w0 = w0 := by simp [intOr, getOr]
  have hh : intOr (.obj [("width", .num q)]) "height" h0 = h0 := by simp [intOr, getOr]
  have hx : intOr (.obj [("width", .num q)]) "x" 0 = 0 := by simp [intOr, getOr]
  have hy : intOr (.obj [("width", .num q)]) "y" 0 = 0 := by simp [intOr, getOr]
  have e := ((setRect_reply h hid hs (.obj [("width", .num q)]) w0 h0 hv).2 (by
    rw [hh]; exact fun e => hz e.2)).1
  rwa [hw, hh, hx, hy] at e

end Verif.Service
