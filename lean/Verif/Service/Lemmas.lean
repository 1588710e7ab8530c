import Verif.Service.Spec

namespace Verif.Service

open Verif.WebDriver

theorem find_member : ∀ (l : List (String × Json)) (key : String) (x : Json),
    (l.map Prod.fst).Nodup → (key, x) ∈ l → l.find? (fun m => m.1 == key) = some (key, x) := by
  intro l key x
  induction l with
  | nil => intro _ h; cases h
  | cons m l ih =>
    intro hn hm
    rw [List.map_cons, List.nodup_cons] at hn
    rcases List.mem_cons.1 hm with h | h
    · subst h; simp
    · have : m.1 ≠ key := fun e => hn.1 (e ▸ List.mem_map.2 ⟨_, h, rfl⟩)
      rw [List.find?_cons_of_neg (by simpa using this)]
      exact ih hn.2 h

theorem getOr_member {v : Json} {key : String} {x d : Json} (h : Member v key x) :
    getOr v key d = x := by
  obtain ⟨l, rfl, hn, hm⟩ := h
  simp only [getOr, find_member l key x hn hm]

theorem getOr_absent {v : Json} {key : String} {d : Json} (h : Absent v key) :
    getOr v key d = d := by
  obtain ⟨l, rfl, hn⟩ := h
  have : l.find? (fun m => m.1 == key) = none := by
    rw [List.find?_eq_none]
    intro m hm e
    exact hn (List.mem_map.2 ⟨m, hm, by simpa using e⟩)
  simp only [getOr, this]

theorem intOr_set {v : Json} {key : String} {old new : Int} (h : SetTo v key old new) :
    intOr v key old = new := by
  rcases h with h | ⟨h, rfl⟩
  · simp only [intOr, getOr_member h]
  · simp only [intOr, getOr_absent h]

/-- Where the state after a command comes from. -/
theorem conclude_driver (env : Env) (srv : Server) (caps : Json) (r : State × Out) (data) :
    (conclude env srv caps r data).1.driver = r.1 := by
  unfold conclude
  split <;> rfl

/-- An answer that is not an error. -/
inductive Fine : Reply → Prop
  | value (v : Json) : Fine (.sent 200 (.obj [("value", v)]))
  | pdf (u : Nat) (j : Job) : Fine (.printed u j)

theorem Fine.proper {r : Reply} (h : Fine r) : Proper r := by
  cases h
  · exact .value _
  · exact .pdf _ _

/-- What a request does to the driver: nothing, or the first part of one command; `Q` if that is
Set Window Rect, `S` if it is a script. -/
inductive Does (env : Env) (srv : Server) (Q S : Prop) : Server × Reply → Option Nat → Prop
  | none (r t) (h : (∃ m, r = failure m) ∨ r = .unrouted ∨ (t = none ∧ (Proper r ∨ r = .index))) :
      Does env srv Q S (srv, r) t
  | command (caps c data t) (ht : c.target = t) (hp : ∀ o, Fine (data o))
      (hr : (∃ s r, c = .setRect s r) → Q := by rintro ⟨_, _, h⟩; cases h)
      (hs : (∃ s k, c = .script s k) → S := by rintro ⟨_, _, h⟩; cases h) :
      Does env srv Q S (conclude env srv caps (call srv.driver c) data) t

theorem failure_proper (m : String) : Proper (failure m) := .error m

theorem nothing_proper (o : Out) : Fine (nothing o) := .value _

theorem rectData_proper (x y : Int) (o : Out) : Fine (rectData x y o) := by
  cases o <;> exact .value _

theorem timeoutsData_proper (o : Out) : Fine (timeoutsData o) := by
  cases o <;> exact .value _

theorem urlData_proper (env : Env) (o : Out) : Fine (urlData env o) := by
  cases o <;> exact .value _

theorem textData_proper (f) (o : Out) : Fine (textData f o) := by
  cases o <;> exact .value _

theorem handleData_proper (env : Env) (o : Out) : Fine (handleData env o) := by
  cases o <;> exact .value _

theorem handlesData_proper (env : Env) (o : Out) : Fine (handlesData env o) := by
  cases o <;> exact .value _

theorem does_session {env : Env} {srv : Server} {Q S : Prop} {id : String} {rest : List String}
    {k : Nat → Server × Reply} (h : ∀ s, Does env srv Q S (k s) (some s)) :
    Does env srv Q S (withSession env srv id k) (addressed env ("session" :: id :: rest)) := by
  simp only [withSession, addressed]
  split
  · exact .none _ _ (.inl ⟨_, rfl⟩)
  · next s e => rw [e]; exact h s

theorem does_body {env : Env} {srv : Server} {Q S : Prop} {body : Option Json} {t}
    {k : Json → Server × Reply} (h : ∀ v, Does env srv Q S (k v) t) :
    Does env srv Q S (withBody env srv body k) t := by
  simp only [withBody]
  split
  · exact .none _ _ (.inl ⟨_, rfl⟩)
  · exact h _

theorem does_text {env : Env} {srv : Server} {Q S : Prop} {v : Json} {key msg : String} {t}
    {k : String → Server × Reply} (h : ∀ v, Does env srv Q S (k v) t) :
    Does env srv Q S (withText srv v key msg k) t := by
  simp only [withText]
  split
  · exact h _
  · exact .none _ _ (.inl ⟨_, rfl⟩)

theorem does_setRect (env : Env) (srv : Server) (s : Nat) (v : Json) {Q S : Prop} (hq : Q) :
    Does env srv Q S (setRect env srv s v) (some s) := by
  simp only [setRect]
  split
  · exact .command _ (.setRect s _) _ _ rfl (rectData_proper _ _) (fun _ => hq)
  · exact .command _ (.getRect s) _ _ rfl nothing_proper

theorem does_execute (env : Env) (srv : Server) (s : Nat) (v : Json) {Q S : Prop} (hs : S) :
    Does env srv Q S (execute env srv s v) (some s) :=
  does_text fun _ => .command _ (.script s _) _ _ rfl (fun _ => .value _) (hs := fun _ => hs)

theorem handle_does (env : Env) (srv : Server) (m : Method) (path : List String)
    (body : Option Json) : Does env srv
    (m = .post ∧ ∃ id, path = ["session", id, "window", "rect"])
    (m = .post ∧ ∃ id how, path = ["session", id, "execute", how])
    (handle env srv m path body) (addressed env path) := by
  unfold handle
  split
  case h_1 => exact .none _ _ (.inr (.inr ⟨rfl, .inr rfl⟩))
  case h_2 => exact does_body fun _ => .command _ .newSession _ _ rfl nothing_proper
  case h_3 => exact does_session fun s => .command _ (.deleteSession s) _ _ rfl nothing_proper
  case h_4 => exact .none _ _ (.inr (.inr ⟨rfl, .inl (.value _)⟩))
  case h_5 => exact does_session fun s => .command _ (.getTimeouts s) _ _ rfl timeoutsData_proper
  case h_6 =>
    exact does_session fun s => does_body fun v =>
      .command _ (.setTimeouts s _) _ _ rfl nothing_proper
  case h_7 =>
    exact does_session fun s => does_body fun v => does_text fun u =>
      .command _ (.navigate s _) _ _ rfl nothing_proper
  case h_8 => exact does_session fun s => .command _ (.getUrl s) _ _ rfl (urlData_proper env)
  case h_9 => exact does_session fun s => .command _ (.refresh s) _ _ rfl nothing_proper
  case h_10 => exact does_session fun s => .command _ (.readDocument s) _ _ rfl (textData_proper _)
  case h_11 => exact does_session fun s => .command _ (.getHandle s) _ _ rfl (handleData_proper _)
  case h_12 => exact does_session fun s => .command _ (.closeWindow s) _ _ rfl (handlesData_proper _)
  case h_13 =>
    exact does_session fun s => does_body fun v => does_text fun u => by
      split
      · exact .none _ _ (.inl ⟨_, rfl⟩)
      · exact .command _ (.switchTo s _) _ _ rfl nothing_proper
  case h_14 => exact does_session fun s => .command _ (.getHandles s) _ _ rfl (handlesData_proper _)
  case h_15 => exact does_session fun s => .command _ (.newWindow s) _ _ rfl nothing_proper
  case h_16 => exact does_session fun s => .command _ (.getRect s) _ _ rfl (rectData_proper _ _)
  case h_17 => exact does_session fun s => does_body fun v => does_setRect env srv s v ⟨rfl, _, rfl⟩
  case h_18 => exact does_session fun s => .command _ (.readDocument s) _ _ rfl (textData_proper _)
  case h_19 => exact does_session fun s => does_body fun v => does_execute env srv s v ⟨rfl, _, _, rfl⟩
  case h_20 => exact does_session fun s => does_body fun v => does_execute env srv s v ⟨rfl, _, _, rfl⟩
  case h_21 => exact does_session fun s => .command _ (.readDocument s) _ _ rfl (textData_proper _)
  case h_22 =>
    exact does_session fun s => does_body fun v => by
      split
      · exact .none _ _ (.inl ⟨_, rfl⟩)
      · refine .command _ (.readDocument s) _ _ rfl fun o => ?_
        split
        · exact .pdf _ _
        · exact .value _
  case h_23 => exact .none _ _ (.inr (.inl rfl))

theorem withWindow_out {st : State} {s : Nat} {k : Nat → State × Out} {P : State × Out → Prop}
    (h1 : ∀ e, P (st, .error e)) (h2 : ∀ w, P (k w)) : P (withWindow st s k) := by
  unfold withWindow
  split
  · exact h1 _
  · split
    · exact h1 _
    · exact h2 _

/-- A command that is done at once leaves the suspended ones alone, one that is not joins them. -/
theorem call_pending (st : State) (c : Cmd) :
    ((call st c).2 ≠ .suspended → (call st c).1.pending = st.pending) ∧
    ((call st c).2 = .suspended → ∃ p, (call st c).1.pending = st.pending ++ [p]) := by
  cases c <;> simp only [call]
  all_goals first
    | ((repeat' split) <;> simp <;> done)
    | (refine withWindow_out (P := fun r => (r.2 ≠ .suspended → r.1.pending = st.pending) ∧
        (r.2 = .suspended → ∃ p, r.1.pending = st.pending ++ [p])) ?_ ?_ <;> intro _ <;>
        (repeat' split) <;> simp)

theorem resume_pending (st : State) (p : Pending) (ok : Bool) :
    (resume st p ok).1.pending = st.pending := by
  unfold resume
  split
  · rfl
  · split <;> rfl

/-- What a load that ends leaves. -/
theorem finish_some {env : Env} {srv srv' : Server} {i : Nat} {ok : Bool} {r : Reply}
    (h : finish env srv i ok = some (srv', r)) :
    i < srv.driver.pending.length ∧ srv'.caps = srv.caps.eraseIdx i ∧
      (∃ out, step srv.driver (.finish i ok) = some (srv'.driver, out)) ∧ Proper r := by
  unfold finish at h
  split at h
  · next p res hp hs =>
    have hlt : i < srv.driver.pending.length := (List.getElem?_eq_some_iff.1 hp).1
    refine ⟨hlt, ?_⟩
    split at h
    · obtain ⟨rfl, rfl⟩ := Prod.mk.inj (Option.some.inj h)
      exact ⟨rfl, ⟨_, hs⟩, failure_proper _⟩
    · split at h <;> obtain ⟨rfl, rfl⟩ := Prod.mk.inj (Option.some.inj h) <;>
        exact ⟨rfl, ⟨_, hs⟩, .value _⟩
    · obtain ⟨rfl, rfl⟩ := Prod.mk.inj (Option.some.inj h)
      exact ⟨rfl, ⟨_, hs⟩, .value _⟩
  · cases h

theorem finish_pending {st st' : State} {i : Nat} {ok : Bool} {out : Out}
    (h : step st (.finish i ok) = some (st', out)) : st'.pending = st.pending.eraseIdx i := by
  simp only [step] at h
  split at h
  · cases h
  · have h' := congrArg (fun x : State × Out => x.1.pending) (Option.some.inj h)
    simpa only [resume_pending] using h'.symm

/-- The driver underneath is in a reachable state, and for each suspended command there are
capabilities. -/
theorem runs_reachable {env : Env} {tr : List (Ev × Reply)} {srv : Server} (h : Runs env tr srv) :
    Reachable srv.driver ∧ srv.caps.length = srv.driver.pending.length := by
  induction h with
  | start => exact ⟨.init, rfl⟩
  | @request tr srv m path body h ih =>
    have hd := handle_does env srv m path body
    generalize handle env srv m path body = res at hd
    generalize addressed env path = t at hd
    cases hd with
    | none r t h => exact ih
    | command caps c data t ht hp hr hs =>
      constructor
      · rw [conclude_driver]
        exact .step ih.1 (ev := .start c) rfl
      · have hp' := call_pending srv.driver c
        unfold conclude
        split
        all_goals try (next h => rw [hp'.1 (by rw [h]; simp)]; exact ih.2)
        · next h =>
          obtain ⟨p, h'⟩ := hp'.2 h
          simp only [h', List.length_append, List.length_cons, List.length_nil, ih.2]
        · next h => exact (congrArg (fun l => srv.caps.length = l.length) (hp'.1 h)).mpr ih.2
  | @loaded tr srv i ok srv' r h hf ih =>
    obtain ⟨hi, hc, ⟨out, ho⟩, -⟩ := finish_some hf
    refine ⟨.step ih.1 ho, ?_⟩
    rw [hc, finish_pending ho, List.length_eraseIdx, List.length_eraseIdx, ih.2]

end Verif.Service
