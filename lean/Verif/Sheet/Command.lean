import Verif.Sheet.Props

/-!
# Sheets: properties of pictures and of the command line

C204 pictures, C205 the command line, C206 the sandbox.
-/

namespace Verif.Sheet
open Verif.Run (Flow Orientation Ev World runBatch)

/-! ## C204: pictures -/

/-- The size of the view: what was asked for, otherwise 800 by 600. -/
inductive ViewSize (o : Opts) : Rat → Rat → Prop where
  | both {w h} : o.width = some w → o.height = some h → ViewSize o w h
  | width {w} : o.width = some w → o.height = none → ViewSize o w 600
  | height {h} : o.width = none → o.height = some h → ViewSize o 800 h
  | neither : o.width = none → o.height = none → ViewSize o 800 600

/-- A document that is not paginated is laid out in the view that was asked for; cropped, the picture is that view; if it
is to fit, the picture covers all that overflows to the right and below. -/
theorem C204_size_partial (overflow : Media → Rect) (o : Opts) (html : Bool) {w h : Rat} (hv : ViewSize o w h) :
    (picture overflow o html).medium.width = w ∧ (picture overflow o html).medium.height = h ∧
    (o.extend = .crop → (picture overflow o html).size = ⟨w, h⟩) ∧
    (o.extend = .fit → let r := overflow (picture overflow o html).medium
      r.x = 0 → r.y = 0 → ∀ x y, r.Has x y ↔
        (0 ≤ x ∧ x < (picture overflow o html).size.width ∧ 0 ≤ y ∧ y < (picture overflow o html).size.height)) := by
  have hm : (picture overflow o html).medium.width = w ∧ (picture overflow o html).medium.height = h := by
    cases hv <;> simp_all [picture, deriveMedia, forRender]
  refine ⟨hm.1, hm.2, ?_, ?_⟩
  · intro hc
    rw [← hm.1, ← hm.2]
    simp only [picture, hc]
  · intro hf r hx hy x y
    have : (picture overflow o html).size = ⟨r.width, r.height⟩ := by simp only [picture, hf, r]
    rw [this]
    simp only [Rect.Has, hx, hy, Rat.zero_add]

/-- It is painted on the colour that was asked for, otherwise on white if it is HTML and on nothing if it is not. -/
theorem C204_ground (overflow : Media → Rect) (o : Opts) (html : Bool) :
    (∀ c, o.background = some c → (picture overflow o html).ground = .clear c) ∧
    (o.background = none → html = true → (picture overflow o html).ground = .white) ∧
    (o.background = none → html = false → (picture overflow o html).ground = .transparent) := by
  refine ⟨fun c hc => ?_, fun hn hh => ?_, fun hn hh => ?_⟩ <;> simp_all [picture]

/-- What overflows to the left is cut off, by as much as there is nothing at the right. -/
theorem C204_left_fails (overflow : Media → Rect) (o : Opts) (html : Bool) (hf : o.extend = .fit)
    (hx : (overflow (picture overflow o html).medium).x < 0) :
    let r := overflow (picture overflow o html).medium
    r.x + r.width < (picture overflow o html).size.width := by
  have : (picture overflow o html).size.width = (overflow (picture overflow o html).medium).width := by
    simp only [picture, hf]
  intro r
  rw [this]
  simp only [r]
  grind

/-- A continuous picture does not grow with its content unless it is told to fit, although it is said to. -/
theorem C204_grow_fails (o : Opts) (html : Bool) (hc : o.extend = .crop) (a b : Media → Rect) :
    (picture a { o with flow := .continuous } html).size = (picture b { o with flow := .continuous } html).size := by
  simp [picture, hc]

/-- Pages are the same whatever the background that was asked for. -/
theorem C204_pages_fails (tall : Doc → Media → Rat) (o : Opts) (css : Nat → Sides) (n : Nat) (c : Option Color)
    (e : Extend) : printed tall { o with background := c, extend := e } css n = printed tall o css n := rfl

/-- A picture is the same whatever the paper, its orientation, its margins, its header and its footer. -/
theorem C204_paper_fails (overflow : Media → Rect) (o o' : Opts) (html : Bool) :
    picture overflow
      { o with
        stock := o'.stock, orientation := o'.orientation, margins := o'.margins, header := o'.header
        footer := o'.footer, headerSize := o'.headerSize, footerSize := o'.footerSize } html = picture overflow o html := rfl

/-- A document of 2000 pixels in a view of 800 by 600. -/
example : let o : Opts := { stock := ⟨500, 700⟩, extend := .fit }
    ViewSize o 800 600 ∧ (picture (fun m => ⟨0, 0, m.width, 2000⟩) o true).size = ⟨800, 2000⟩ ∧
    (picture (fun m => ⟨-50, 0, m.width + 50, 2000⟩) o true).size = ⟨850, 2000⟩ :=
  ⟨.neither rfl rfl, rfl, by decide +kernel⟩

/-! ## C205: the command line -/

theorem names_input (e : Env) (i u : String) : Names e "fd:stdin" i u ↔ inputUrl e i = u := by
  unfold inputUrl
  constructor
  · intro h
    cases h with
    | dash => simp
    | other hn => simp [hn]
  · intro h
    by_cases hi : i = "-"
    · subst hi; simp at h; subst h; exact .dash
    · simp only [hi, if_false] at h; subst h; exact .other hi

theorem allNames (e : Env) (is us : List String) : AllNames e "fd:stdin" is us ↔ is.map (inputUrl e) = us := by
  induction is generalizing us with
  | nil =>
    constructor
    · intro h; cases h; rfl
    · intro h; cases h; exact .nil
  | cons i is ih =>
    constructor
    · intro h
      cases h with
      | cons h1 h2 => rw [List.map_cons, (names_input e i _).1 h1, (ih _).1 h2]
    · intro h
      cases h
      exact .cons ((names_input e i _).2 rfl) ((ih _).2 rfl)

theorem names_output (e : Env) (n u : String) :
    Names e "fd:stdout" n u ↔ (if n ≠ "-" then e.url n else "fd:stdout") = u := by
  constructor
  · intro h
    cases h with
    | dash => simp
    | other hn => simp [hn]
  · intro h
    by_cases hi : n = "-"
    · subst hi; simp at h; subst h; exact .dash
    · simp only [hi, ne_eq, not_false_eq_true, if_true] at h; subst h; exact .other hi

theorem formats_iff (e : Env) (a : Args) (output f : String) : Formats e a output f ↔
    a.format.getD (if e.suffix output ≠ "" then e.fromSuffix (e.suffix output) else pdf) = f := by
  constructor
  · intro h
    cases h with
    | asked h => simp [h]
    | suffix h hs => simp [h, hs]
    | pdf h hs => simp [h, hs, pdf]
  · intro h
    cases hf : a.format with
    | some g => rw [hf] at h; cases h; exact .asked hf
    | none =>
      rw [hf, Option.getD_none] at h
      by_cases hs : e.suffix output = ""
      · simp only [hs, ne_eq, not_true_eq_false, if_false] at h; subst h; exact .pdf hf hs
      · simp only [hs, ne_eq, not_false_eq_true, if_true] at h; subst h; exact .suffix hf hs

/-- What the command converts, and how: each input in its order, `-` for the streams; the format that was asked for, that
of the suffix of the output, or PDF; pages for PDF unless something else was asked for.  It converts if and only if a
paper is given, the log is not to be both verbose and quiet, and the sandbox, if asked for, can be entered. -/
theorem C205_converts (e : Env) (a : Args) (lv : Level) (ins : List String) (out fmt : String) (st : Stock) (pg : Bool) :
    entry e a = .convert lv ins out fmt st pg ↔
      a.paper = some st ∧ ¬ (a.verbose = true ∧ a.quiet = true) ∧ (a.sandboxed = true → e.sandbox = true) ∧
      Logs a lv ∧ AllNames e "fd:stdin" a.inputs ins ∧ Names e "fd:stdout" a.output out ∧ Formats e a out fmt ∧
      (pg = true ↔ Paged a.flow fmt) := by
  have hl : ∀ lv, ¬ (a.verbose = true ∧ a.quiet = true) →
      ((if a.quiet then Level.fatal else if a.verbose then .print else .info) = lv ↔ Logs a lv) := by
    intro lv hn
    constructor
    · rintro rfl
      cases hq : a.quiet <;> cases hv : a.verbose
      · exact .plain hv hq
      · exact .verbose hv hq
      · exact .quiet hq hv
      · exact absurd ⟨hv, hq⟩ hn
    · intro h
      cases h <;> simp_all
  have hpg : ∀ fmt, (match a.flow with
      | .auto => decide (fmt = pdf)
      | .paginate => true
      | .continuous => false) = pg ↔ (pg = true ↔ Paged a.flow fmt) := by
    intro fmt
    by_cases hf : fmt = "public.pdf" <;> cases a.flow <;> cases pg <;> simp [Paged, pdf, hf]
  rw [allNames, names_output, formats_iff]
  unfold entry
  cases hp : a.paper with
  | none => simp
  | some stock =>
    by_cases hn : a.verbose = true ∧ a.quiet = true
    · simp [hn.1, hn.2]
    · have hn' : (a.verbose && a.quiet) = false := by
        cases hv : a.verbose <;> cases hq : a.quiet <;> simp_all
      by_cases hs : a.sandboxed = true ∧ e.sandbox = false
      · simp [hn', hs.1, hs.2]
      · have hs' : (a.sandboxed && !e.sandbox) = false := by
          cases hv : a.sandboxed <;> cases hq : e.sandbox <;> simp_all
        have hs2 : a.sandboxed = true → e.sandbox = true := by
          intro h1
          cases hq : e.sandbox
          · exact absurd ⟨h1, hq⟩ hs
          · rfl
        simp only [hn', hs', Bool.false_eq_true, if_false, Action.convert.injEq, hl lv hn, Option.some.injEq]
        constructor
        · rintro ⟨h1, h2, h3, h4, h5, h6⟩
          rw [h3] at h4
          rw [h3, h4] at h6
          exact ⟨h5, hn, hs2, h1, h2, h3, h4, (hpg fmt).1 h6⟩
        · rintro ⟨h5, _, _, h1, h2, h3, h4, h6⟩
          rw [h3, h4]
          exact ⟨h1, h2, rfl, rfl, h5, (hpg fmt).2 h6⟩

/-- Asking for both a verbose and a quiet log is refused; so is a sandbox that cannot be entered. -/
theorem C205_refuses (e : Env) (a : Args) {st : Stock} (hp : a.paper = some st) :
    (a.verbose = true → a.quiet = true → entry e a = .conflict) ∧
    (¬ (a.verbose = true ∧ a.quiet = true) → a.sandboxed = true → e.sandbox = false → entry e a = .noSandbox) := by
  constructor
  · intro h1 h2
    simp [entry, hp, h1, h2]
  · intro h1 h2 h3
    have : (a.verbose && a.quiet) = false := by
      cases hv : a.verbose <;> cases hq : a.quiet <;> simp_all
    simp [entry, hp, h2, h3, this]

/-- The papers are listed even so. -/
theorem C205_list_fails (e : Env) (a : Args) (hp : a.paper = none) : entry e a = .listPapers := by
  simp [entry, hp]

/-- `paper-muncher a.html - -o out.png`. -/
example : entry ⟨fun s => "file:/" ++ s, fun s => if s = "file:/out.png" then "png" else "", fun s => "public." ++ s, true⟩
    { inputs := ["a.html", "-"], output := "out.png", paper := some ⟨794, 1123⟩, verbose := true } =
    .convert .print ["file:/a.html", "fd:stdin"] "file:/out.png" "public.png" ⟨794, 1123⟩ false := by decide +kernel

/-! ## C206: the sandbox -/

/-- Something was read or written. -/
inductive Touched (tr : List Ev) (u : String) : Prop where
  | read {d} : Ev.load u (some d) ∈ tr → Touched tr u
  | written {ps c} : Ev.put u ps c true ∈ tr → Touched tr u

/-- All that was touched was granted by the world. -/
def Granted (P : String → Prop) (tr : List Ev) : Prop := ∀ u, Touched tr u → P u

theorem granted_nil (P : String → Prop) : Granted P [] := by
  intro u h; cases h with
  | read h => cases h
  | written h => cases h

theorem granted_snoc {P : String → Prop} {tr : List Ev} (h : Granted P tr) {e : Ev}
    (hl : ∀ u d, e = .load u (some d) → P u) (hp : ∀ u ps c, e = .put u ps c true → P u) : Granted P (tr ++ [e]) := by
  intro u ht
  cases ht with
  | read hm =>
    rcases List.mem_append.1 hm with hm | hm
    · exact h u (.read hm)
    · exact hl _ _ (List.mem_singleton.1 hm).symm
  | written hm =>
    rcases List.mem_append.1 hm with hm | hm
    · exact h u (.written hm)
    · exact hp _ _ _ (List.mem_singleton.1 hm).symm

/-- A world that grants only what has this property. -/
structure Grants (P : String → Prop) (w : World) : Prop where
  load : ∀ tr u d, w.load tr u = some d → P u
  put : ∀ tr u ps, w.put tr u ps = true → P u

section
variable {P : String → Prop} {w : World} (hw : Grants P w) {o : Verif.Run.Opts}
include hw

theorem granted_loadOne {tr : List Ev} (h : Granted P tr) (u : String) : Granted P (Verif.Run.loadOne w tr u).1 :=
  granted_snoc h (fun v d he => by
      obtain ⟨rfl, hd⟩ := Ev.load.injEq .. ▸ he
      exact hw.load tr u d hd)
    (fun _ _ _ he => by cases he)

theorem granted_loadExtra {tr : List Ev} (h : Granted P tr) (x : Option String) :
    Granted P (Verif.Run.loadExtra w tr x).1 := by
  cases x with
  | none => exact h
  | some u =>
    have := granted_loadOne hw h u
    simp only [Verif.Run.loadExtra]
    generalize Verif.Run.loadOne w tr u = r at *
    obtain ⟨tr1, d⟩ := r
    cases d <;> exact this

theorem granted_runSingle {tr : List Ev} (h : Granted P tr) (u : String) :
    Granted P (Verif.Run.runSingle w o tr u).1 := by
  have h1 := granted_loadOne hw h u
  unfold Verif.Run.runSingle
  generalize Verif.Run.loadOne w tr u = r1 at *
  obtain ⟨tr1, d1⟩ := r1
  cases d1 with
  | none => exact h1
  | some d =>
    simp only
    split
    · have h2 := granted_loadExtra hw h1 o.header
      simp only at h2
      generalize Verif.Run.loadExtra w tr1 o.header = r2 at *
      obtain ⟨tr2, d2⟩ := r2
      cases d2 with
      | none => exact h2
      | some d2 =>
        have h3 := granted_loadExtra hw h2 o.footer
        simp only at h3 ⊢
        generalize Verif.Run.loadExtra w tr2 o.footer = r3 at *
        obtain ⟨tr3, d3⟩ := r3
        cases d3 <;> exact h3
    · exact h1

theorem granted_save {tr : List Ev} (h : Granted P tr) (u : String) (ps : List Verif.Run.Page) (c : Bool) :
    Granted P (Verif.Run.save w tr u ps c).1 := by
  unfold Verif.Run.save
  split
  · refine granted_snoc h (fun _ _ he => by cases he) (fun v qs c' he => ?_)
    obtain ⟨rfl, _, _, hp⟩ := Ev.put.injEq .. ▸ he
    exact hw.put tr u ps hp
  · exact h

theorem granted_concat (us : List String) : ∀ {tr : List Ev} (_ : Granted P tr) (acc : List Verif.Run.Page),
    Granted P (Verif.Run.concatLoop w o tr acc us).1 := by
  induction us with
  | nil => intro tr h acc; exact h
  | cons u us ih =>
    intro tr h acc
    have h1 := granted_runSingle hw (o := o) h u
    unfold Verif.Run.concatLoop
    generalize Verif.Run.runSingle w o tr u = r at *
    obtain ⟨tr1, d⟩ := r
    cases d with
    | none => exact h1
    | some ps => exact ih h1 _

theorem granted_separate (us : List String) : ∀ {tr : List Ev} (_ : Granted P tr),
    Granted P (Verif.Run.separateLoop w o tr us).1 := by
  induction us with
  | nil => intro tr h; exact h
  | cons u us ih =>
    intro tr h
    unfold Verif.Run.separateLoop
    split
    · exact h
    · have h1 := granted_runSingle hw (o := o) h u
      generalize Verif.Run.runSingle w o tr u = r at *
      obtain ⟨tr1, d⟩ := r
      cases d with
      | none => exact h1
      | some ps =>
        have h2 := granted_save hw h1 (w.name u) ps us.isEmpty
        simp only at h2 ⊢
        generalize Verif.Run.save w tr1 (w.name u) ps us.isEmpty = s at *
        obtain ⟨tr2, ok⟩ := s
        cases ok with
        | false => exact h2
        | true => exact ih h2

theorem granted_runBatch (inputs : List String) (output : String) : Granted P (runBatch w o inputs output).1 := by
  unfold runBatch
  cases o.batch with
  | separate => exact granted_separate hw inputs (granted_nil P)
  | concat =>
    simp only
    split
    · exact granted_nil P
    · have h1 := granted_concat hw (o := o) inputs (granted_nil P) []
      generalize Verif.Run.concatLoop w o [] [] inputs = r at *
      obtain ⟨tr1, d⟩ := r
      cases d with
      | none => exact h1
      | some ps => exact granted_save hw h1 _ _ _

end

theorem served_iff (b : Bool) (s : String) : served b s = true ↔
    s ∈ (if b then ["pipe", "bundle", "fd", "data"] else ["pipe", "http", "https", "file", "bundle", "fd", "data"]) := by
  cases b <;> simp [served, transports, takes, or_assoc]

theorem behind_grants (scheme : String → String) (b : Bool) (w : World) :
    Grants (fun u => served b (scheme u) = true) (behind scheme b w) := by
  constructor
  · intro tr u d h
    simp only [behind] at h
    split at h
    · assumption
    · cases h
  · intro tr u ps h
    simp only [behind, Bool.and_eq_true] at h
    exact h.1

/-- In the sandbox, whatever the inputs and whatever the world answers, nothing is read or written but pipes, streams, the
program's own files and data in urls: neither files nor the network. -/
theorem C206_confined (scheme : String → String) (w : World) (o : Verif.Run.Opts) (inputs : List String) (output : String)
    {u : String} (h : Touched (runBatch (behind scheme true w) o inputs output).1 u) :
    scheme u ∈ ["pipe", "bundle", "fd", "data"] ∧ scheme u ≠ "file" ∧ scheme u ≠ "http" ∧ scheme u ≠ "https" := by
  have := (served_iff true _).1 (granted_runBatch (behind_grants scheme true w) inputs output u h)
  refine ⟨this, ?_⟩
  refine ⟨?_, ?_, ?_⟩ <;> intro hc <;> rw [hc] at this <;> revert this <;> decide

/-- In the sandbox an output that is a file, or an input that is one, makes the command fail, and nothing is written for
all inputs together. -/
theorem C206_refused (scheme : String → String) (w : World) (o : Verif.Run.Opts) (inputs : List String) (output : String)
    (hb : o.batch = .concat) (hf : scheme output = "file" ∨ ∃ u ∈ inputs, scheme u = "file") :
    (runBatch (behind scheme true w) o inputs output).2 = false ∧
    ∀ u ps c, Ev.put u ps c true ∉ (runBatch (behind scheme true w) o inputs output).1 := by
  have hn : ∀ u ps c, Ev.put u ps c true ∉ (runBatch (behind scheme true w) o inputs output).1 := by
    intro u ps c hm
    have hall := Verif.Run.C39_concat_all_loaded (tr := (runBatch (behind scheme true w) o inputs output).1)
      (ok := (runBatch (behind scheme true w) o inputs output).2) hb rfl hm
    rcases hf with hf | ⟨v, hv, hf⟩
    · have := C206_confined scheme w o inputs output (.written hm)
      rw [hall.1] at this
      exact this.2.1 hf
    · obtain ⟨d, hd⟩ := hall.2 v hv
      exact (C206_confined scheme w o inputs output (.read hd)).2.1 hf
  refine ⟨?_, hn⟩
  rcases Verif.Run.C39_concat (tr := (runBatch (behind scheme true w) o inputs output).1)
      (ok := (runBatch (behind scheme true w) o inputs output).2) hb rfl with ⟨_, h⟩ | ⟨evs, ps, h, _⟩
  · exact h
  · cases hok : (runBatch (behind scheme true w) o inputs output).2
    · rfl
    · rw [hok] at h
      exact absurd (by rw [h]; simp) (hn output ps true)

/-- Out of it, and for the streams in it, the world is asked. -/
theorem C206_asked (scheme : String → String) (w : World) (tr : List Ev) (u : String) :
    (scheme u ∈ ["pipe", "bundle", "fd", "data"] → ∀ b, (behind scheme b w).load tr u = w.load tr u ∧
      ∀ ps, (behind scheme b w).put tr u ps = w.put tr u ps) ∧
    (scheme u ∈ ["http", "https", "file"] → (behind scheme false w).load tr u = w.load tr u ∧
      ∀ ps, (behind scheme false w).put tr u ps = w.put tr u ps) := by
  have key : ∀ b, served b (scheme u) = true → (behind scheme b w).load tr u = w.load tr u ∧
      ∀ ps, (behind scheme b w).put tr u ps = w.put tr u ps := by
    intro b hb
    simp [behind, hb]
  constructor
  · intro h b
    refine key b ((served_iff b _).2 ?_)
    cases b
    · revert h; simp; grind
    · exact h
  · intro h
    refine key false ((served_iff false _).2 ?_)
    revert h; simp; grind

/-- In the sandbox a stream is converted to a stream; a file is not. -/
example : let w : World := ⟨fun _ _ => some 1, fun _ _ _ => true, fun d _ _ => [d], fun d => d, true, fun _ => true, id⟩
    let scheme := fun u => if u = "a.html" then "file" else "fd"
    runBatch (behind scheme true w) ⟨.concat, .auto, true, none, none⟩ ["fd:stdin"] "fd:stdout" =
      ([.load "fd:stdin" (some 1), .put "fd:stdout" [1] true true], true) ∧
    runBatch (behind scheme true w) ⟨.concat, .auto, true, none, none⟩ ["a.html"] "fd:stdout" =
      ([.load "a.html" none], false) := by decide +kernel

end Verif.Sheet
