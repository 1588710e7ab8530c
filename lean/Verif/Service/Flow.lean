import Verif.Service.Print

/-!
# The WebDriver service: what is answered is so (C190)
-/

namespace Verif.Service

open Verif.WebDriver

/-- The texts of uuids read back. -/
def RoundTrip (env : Env) : Prop := ∀ n, env.parseUuid (env.uuidText n) = some n

theorem eraseIdx_last {α : Type} (l : List α) (a : α) : (l ++ [a]).eraseIdx l.length = l := by
  simp [List.eraseIdx_append_of_length_le]

/-- **C190.** Navigate waits for its page; when that has come, the url of the window is the one
asked for; when it has not, the request is answered with an error and the url is what it was. -/
theorem C190_navigate {env : Env} {tr : List (Ev × Reply)} {srv : Server} (h : Runs env tr srv)
    {id : String} {s : Nat} (hid : env.parseUuid id = some s) (hs : s ∈ srv.driver.live)
    (v : Json) (url : String) (hv : Member v "url" (.str url)) :
    (handle env srv .post ["session", id, "url"] (some v)).2 = .waiting ∧
    (∃ srv', finish env (handle env srv .post ["session", id, "url"] (some v)).1
        srv.driver.pending.length true = some (srv', nullAnswer) ∧
      (handle env srv' .get ["session", id, "url"] none).2 =
        .sent 200 (.obj [("value", .str (env.urlText (env.parseUrl url)))])) ∧
    (∃ srv' msg, finish env (handle env srv .post ["session", id, "url"] (some v)).1
        srv.driver.pending.length false = some (srv', failure msg) ∧
      (handle env srv' .get ["session", id, "url"] none).2 =
        (handle env srv .get ["session", id, "url"] none).2) := by
  obtain ⟨o, ho⟩ := (runs_reachable h).1.inv
  have hcall : handle env srv .post ["session", id, "url"] (some v) =
      (⟨{ srv.driver with pending := srv.driver.pending ++
        [.load s (srv.driver.objs s).current (env.parseUrl url)] }, srv.caps ++ [.null]⟩, .waiting) := by
    simp only [handle, withSession, hid, withBody, withText, getOr_member hv, call,
      withWindow_eq ho hs, conclude]
  rw [hcall]
  refine ⟨rfl, ?_, ?_⟩
  · refine ⟨_, by
      simp only [finish, step, List.getElem?_append_right (Nat.le_refl _), Nat.sub_self,
        List.getElem?_cons_zero, resume, Bool.not_true, Bool.false_eq_true, if_false]
      rfl, ?_⟩
    simp [handle, withSession, hid, call, withWindow, getSession, hs, currentContext, ho.cur s hs,
      upd, conclude, urlData, success]
  · refine ⟨_, env.badLoad, by
      simp only [finish, step, List.getElem?_append_right (Nat.le_refl _), Nat.sub_self,
        List.getElem?_cons_zero, resume, Bool.not_false, if_true]
      rfl, ?_⟩
    simp only [handle, withSession, hid, call, withWindow, getSession, hs, currentContext,
      ho.cur s hs, if_true]
    generalize (srv.driver.wins (srv.driver.objs s).current).doc = d
    cases d <;> simp [conclude]

/-- **C190.** A window switched to is the one that is current. -/
theorem C190_switch {env : Env} (hu : RoundTrip env) (srv : Server)
    {id : String} {s : Nat} (hid : env.parseUuid id = some s) (hs : s ∈ srv.driver.live)
    (v : Json) (w : Nat) (hw : w ∈ (srv.driver.objs s).windows)
    (hv : Member v "handle" (.str (env.uuidText w))) :
    (handle env srv .post ["session", id, "window"] (some v)).2 = nullAnswer ∧
    (handle env (handle env srv .post ["session", id, "window"] (some v)).1 .get
      ["session", id, "window"] none).2 = .sent 200 (.obj [("value", .str (env.uuidText w))]) := by
  have e : handle env srv .post ["session", id, "window"] (some v) =
      ({ srv with driver := { srv.driver with
        objs := upd srv.driver.objs s { srv.driver.objs s with current := w } } }, nullAnswer) := by
    simp only [handle, withSession, hid, withBody, withText, getOr_member hv, hu w, call, getSession,
      hs, if_true, hw, conclude, nothing, success, nullAnswer]
  rw [e]
  refine ⟨rfl, ?_⟩
  simp [handle, withSession, hid, call, getSession, hs, upd, conclude, handleData, success]

/-- **C190.** A window that is not there is not switched to. -/
theorem C190_no_window {env : Env} (srv : Server) {id t : String} {s w : Nat}
    (hid : env.parseUuid id = some s) (hs : s ∈ srv.driver.live)
    (v : Json) (hw : w ∉ (srv.driver.objs s).windows) (ht : env.parseUuid t = some w)
    (hv : Member v "handle" (.str t)) :
    handle env srv .post ["session", id, "window"] (some v) = (srv, failure "no such window") := by
  simp only [handle, withSession, hid, withBody, withText, getOr_member hv, ht, call, getSession,
    hs, if_true, hw, if_false, conclude, errorText]

/-- **C190.** A session that is deleted is refused from then on. -/
theorem C190_delete {env : Env} (srv : Server) {id : String} {s : Nat}
    (hid : env.parseUuid id = some s) (hs : s ∈ srv.driver.live) :
    (handle env srv .delete ["session", id] none).2 = nullAnswer ∧
    (handle env (handle env srv .delete ["session", id] none).1 .delete ["session", id] none).2 =
      failure "invalid session uuid" ∧
    (handle env (handle env srv .delete ["session", id] none).1 .get ["session", id, "window"] none).2 =
      failure "invalid session uuid" := by
  have e : handle env srv .delete ["session", id] none =
      ({ srv with driver := { srv.driver with live := srv.driver.live.filter (· != s) } },
        nullAnswer) := by
    simp only [handle, withSession, hid, call, hs, if_true, conclude, nothing, success, nullAnswer]
  rw [e]
  refine ⟨rfl, ?_, ?_⟩ <;>
    simp [handle, withSession, hid, call, getSession, conclude, errorText]

/-- **C190.** New Session waits for its page; then the session answered can be used: it has one
window, which is current, and the timeouts of the protocol. -/
theorem C190_new_session {env : Env} (hu : RoundTrip env) (srv : Server) (v : Json) :
    (handle env srv .post ["session"] (some v)).2 = .waiting ∧
    ∃ srv' id w caps, finish env (handle env srv .post ["session"] (some v)).1
        srv.driver.pending.length true = some (srv', .sent 200 (.obj [("value",
          .obj [("sessionId", .str id), ("capabilities", caps)])])) ∧
      (handle env srv' .get ["session", id, "window"] none).2 =
        .sent 200 (.obj [("value", .str w)]) ∧
      (handle env srv' .get ["session", id, "window", "handles"] none).2 =
        .sent 200 (.obj [("value", .arr [.str w])]) ∧
      (handle env srv' .get ["session", id, "timeouts"] none).2 = timeoutsAnswer 30000 300000 0 := by
  have e : handle env srv .post ["session"] (some v) =
      (⟨{ srv.driver with fresh := srv.driver.fresh + 2, pending := srv.driver.pending ++
        [.newSession srv.driver.fresh (srv.driver.fresh + 1)] },
        srv.caps ++ [getOr v "capabilities" .null]⟩, .waiting) := by
    simp only [handle, withBody, call, conclude]
  rw [e]
  refine ⟨rfl, _, env.uuidText srv.driver.fresh, env.uuidText (srv.driver.fresh + 1), _, by
    simp only [finish, step, List.getElem?_append_right (Nat.le_refl _), Nat.sub_self,
      List.getElem?_cons_zero, resume, Bool.not_true, Bool.false_eq_true, if_false]
    rfl, ?_, ?_, ?_⟩ <;>
    simp [handle, withSession, hu _, call, getSession, mem_putKey, conclude, upd, handleData,
      handlesData, timeoutsData, success, timeoutsAnswer]

/-- **C190.** The capabilities asked for are the ones answered. -/
theorem C190_capabilities {env : Env} {tr : List (Ev × Reply)} {srv : Server} (h : Runs env tr srv)
    (v caps : Json) (hv : Member v "capabilities" caps) :
    ∃ srv' id, finish env (handle env srv .post ["session"] (some v)).1
        srv.driver.pending.length true = some (srv', .sent 200 (.obj [("value",
          .obj [("sessionId", .str id), ("capabilities", caps)])])) := by
  have hl := (runs_reachable h).2
  have e : handle env srv .post ["session"] (some v) =
      (⟨{ srv.driver with fresh := srv.driver.fresh + 2, pending := srv.driver.pending ++
        [.newSession srv.driver.fresh (srv.driver.fresh + 1)] },
        srv.caps ++ [caps]⟩, .waiting) := by
    simp only [handle, withBody, call, conclude, getOr_member hv]
  rw [e]
  have hc : (srv.caps ++ [caps])[srv.driver.pending.length]? = some caps := by
    rw [← hl]; simp
  refine ⟨_, env.uuidText srv.driver.fresh, by
    simp only [finish, step, List.getElem?_append_right (Nat.le_refl _), Nat.sub_self,
      List.getElem?_cons_zero, resume, Bool.not_true, Bool.false_eq_true, if_false, hc,
      Option.getD_some]
    rfl⟩

/-- **C190.** New Window waits for its page; then the window answered is current and listed, after
those there were. -/
theorem C190_new_window {env : Env} {tr : List (Ev × Reply)} {srv : Server} (h : Runs env tr srv)
    {id : String} {s : Nat} (hid : env.parseUuid id = some s) (hs : s ∈ srv.driver.live) :
    (handle env srv .post ["session", id, "window", "new"] none).2 = .waiting ∧
    ∃ srv' w, finish env (handle env srv .post ["session", id, "window", "new"] none).1
        srv.driver.pending.length true = some (srv', .sent 200 (.obj [("value",
          .obj [("handle", .str (env.uuidText w)), ("type", .str "window")])])) ∧
      w ∉ (srv.driver.objs s).windows ∧
      (handle env srv' .get ["session", id, "window"] none).2 =
        .sent 200 (.obj [("value", .str (env.uuidText w))]) ∧
      (handle env srv' .get ["session", id, "window", "handles"] none).2 =
        .sent 200 (.obj [("value", .arr (((srv.driver.objs s).windows ++ [w]).map
          fun w => .str (env.uuidText w)))]) := by
  obtain ⟨o, ho⟩ := (runs_reachable h).1.inv
  have hnew : srv.driver.fresh ∉ (srv.driver.objs s).windows := by
    intro hm
    exact Nat.lt_irrefl _ (ho.wins s _ hm).2.2
  have e : handle env srv .post ["session", id, "window", "new"] none =
      (⟨{ srv.driver with fresh := srv.driver.fresh + 1, pending := srv.driver.pending ++
        [.newWindow s srv.driver.fresh] }, srv.caps ++ [.null]⟩, .waiting) := by
    simp only [handle, withSession, hid, call, getSession, hs, if_true, conclude]
  rw [e]
  refine ⟨rfl, _, srv.driver.fresh, by
    simp only [finish, step, List.getElem?_append_right (Nat.le_refl _), Nat.sub_self,
      List.getElem?_cons_zero, resume, Bool.not_true, Bool.false_eq_true, if_false]
    rfl, hnew, ?_, ?_⟩ <;>
    simp [handle, withSession, hid, call, getSession, hs, conclude, upd, handleData,
      handlesData, success, putKey, hnew]

/-- **C190.** Close Window answers with the windows that are left, and the first of them is current;
when none is left the session is gone. -/
theorem C190_close {env : Env} {tr : List (Ev × Reply)} {srv : Server} (h : Runs env tr srv)
    {id : String} {s : Nat} (hid : env.parseUuid id = some s) (hs : s ∈ srv.driver.live)
    (left : List Nat)
    (hleft : left = (srv.driver.objs s).windows.filter (· ≠ (srv.driver.objs s).current)) :
    (handle env srv .delete ["session", id, "window"] none).2 =
      .sent 200 (.obj [("value", .arr (left.map fun w => .str (env.uuidText w)))]) ∧
    (left = [] → (handle env (handle env srv .delete ["session", id, "window"] none).1 .get
      ["session", id, "window"] none).2 = failure "invalid session uuid") ∧
    (∀ w rest, left = w :: rest →
      (handle env (handle env srv .delete ["session", id, "window"] none).1 .get
        ["session", id, "window"] none).2 = .sent 200 (.obj [("value", .str (env.uuidText w))]) ∧
      (handle env (handle env srv .delete ["session", id, "window"] none).1 .get
        ["session", id, "window", "handles"] none).2 =
          .sent 200 (.obj [("value", .arr (left.map fun w => .str (env.uuidText w)))])) := by
  obtain ⟨o, ho⟩ := (runs_reachable h).1.inv
  have hf : (srv.driver.objs s).windows.filter (· != (srv.driver.objs s).current) = left := by
    rw [hleft]
    refine List.filter_congr fun x _ => ?_
    by_cases h : x = (srv.driver.objs s).current <;> simp [h]
  cases left with
  | nil =>
    have e : handle env srv .delete ["session", id, "window"] none =
        ({ srv with driver := { srv.driver with
            objs := upd srv.driver.objs s { srv.driver.objs s with windows := [] },
            live := srv.driver.live.filter (· != s) } }, .sent 200 (.obj [("value", .arr [])])) := by
      simp [handle, withSession, hid, call, getSession, hs, ho.cur s hs, hf, conclude, handlesData,
        success]
    rw [e]
    refine ⟨rfl, fun _ => ?_, fun w rest h => by cases h⟩
    simp [handle, withSession, hid, call, getSession, conclude, errorText]
  | cons w rest =>
    have e : handle env srv .delete ["session", id, "window"] none =
        ({ srv with driver := { srv.driver with
            objs := upd srv.driver.objs s { srv.driver.objs s with windows := w :: rest, current := w } } },
          .sent 200 (.obj [("value", .arr ((w :: rest).map fun w => .str (env.uuidText w)))])) := by
      simp [handle, withSession, hid, call, getSession, hs, ho.cur s hs, hf, conclude, handlesData,
        success]
    rw [e]
    refine ⟨rfl, (fun h => by cases h), fun w' rest' h => ?_⟩
    cases h
    refine ⟨?_, ?_⟩ <;>
      simp [handle, withSession, hid, call, getSession, hs, upd, conclude, handleData, handlesData,
        success]

/-- The sample history: a session with a window, the url to go to, the window to switch to. -/
example : 0 ∈ sampleServer.driver.live ∧ 1 ∈ (sampleServer.driver.objs 0).windows ∧
    5 ∉ (sampleServer.driver.objs 0).windows ∧
    (handle sampleEnv sampleServer .post ["session", "a", "url"]
      (some (.obj [("url", .str "file:page")]))).2 = .waiting := ⟨by decide, by decide, by decide, rfl⟩

end Verif.Service
