import Verif.Load.Lemmas
/-!
# Loading: properties

C46 style sheets, C87 pictures, C88 fonts, C89 images that contain each other.
-/
namespace Verif.Load

/-! ## C46: style sheets -/

/-- The sheets of a document are the built-in ones followed by those of its elements whose content could be obtained, in
document order. `Simple` leaves out documents in which an `<img>`, `<style>` or `<link>` has element children. -/
theorem C46_sheets_partial {bundle : String → Option String} {net : Net} {quirk markdown : Bool} {root : List Node} {d : Doc}
    (hs : Simple root) (h : fetchDocument bundle net quirk markdown root = some d) :
    ∃ ua author, d.sheets = ua ++ author ∧ (∀ s ∈ ua, s.origin = .userAgent) ∧
      ua.map (fun s => some s.text) = (builtins quirk markdown).map bundle ∧
      Picked (SheetOf net) (elementsOf root) author := by
  unfold fetchDocument at h
  obtain ⟨d0, h0, rfl⟩ := Option.map_eq_some_iff.1 h
  obtain ⟨ts, h1, _, h3⟩ := addBuiltins_spec bundle _ _ _ h0
  obtain ⟨⟨bs, h4, h5⟩, _⟩ := fetchKids_adds net root d0 hs
  refine ⟨d0.sheets, bs, h4, ?_, ?_, h5⟩
  · intro s hs
    rw [h1] at hs
    simp only [List.nil_append, List.mem_map] at hs
    obtain ⟨t, _, rfl⟩ := hs
    rfl
  · rw [h1, h3]
    simp [Function.comp_def]

/-- If the fetches of one `<link>` fail, its sheet is missing and all others are as before. -/
theorem C46_failure_local_partial {bundle : String → Option String} {net net' : Net} {quirk markdown : Bool}
    {root : List Node} {d d' : Doc} {i : Nat} (hs : Simple root)
    (hl : ∀ p ∈ elementsOf root, p.1.id = i → p.1.tag = .link) (hi : ∀ u, net'.sheet i u = none)
    (ho : ∀ j u, j ≠ i → net'.sheet j u = net.sheet j u)
    (h : fetchDocument bundle net quirk markdown root = some d)
    (h' : fetchDocument bundle net' quirk markdown root = some d') :
    d'.sheets = d.sheets.filter fun s => s.owner ≠ some i := by
  unfold fetchDocument at h h'
  obtain ⟨d0, h0, rfl⟩ := Option.map_eq_some_iff.1 h
  obtain ⟨d0', h0', rfl⟩ := Option.map_eq_some_iff.1 h'
  rw [h0] at h0'
  cases h0'
  obtain ⟨ts, h1, _, _⟩ := addBuiltins_spec bundle _ _ _ h0
  obtain ⟨⟨bs, h4, h5⟩, _⟩ := fetchKids_adds net root d0 hs
  obtain ⟨⟨bs', h4', h5'⟩, _⟩ := fetchKids_adds net' root d0 hs
  rw [h4, h4', List.filter_append]
  have e1 : d0.sheets.filter (fun s => decide (s.owner ≠ some i)) = d0.sheets := by
    rw [h1]
    simp
  have e2 := picked_unique (R := SheetOf net') (fun _ _ _ => sheetOf_inj) h5' (picked_fail hi ho hl h5)
  rw [e1, e2]

/-- The document is loaded whenever the built-in sheets are there, whatever the network does. -/
theorem C46_loads (bundle : String → Option String) (net : Net) (quirk markdown : Bool) (root : List Node)
    (h : ∀ n ∈ builtins quirk markdown, (bundle n).isSome = true) :
    ∃ d, fetchDocument bundle net quirk markdown root = some d := by
  obtain ⟨d, hd⟩ := addBuiltins_some bundle _ {} h
  exact ⟨_, by unfold fetchDocument; rw [hd]; rfl⟩

/-- A document with three sheets, one of which cannot be fetched. -/
def sample : List Node :=
  [.el { id := 0 } [.el { id := 1, tag := .link, rel := some "stylesheet", href := some "a.css" } [],
    .el { id := 2, tag := .link, rel := some "stylesheet", href := some "b.css" } [],
    .el { id := 3, tag := .style } [.text "p {}"]], .el { id := 4, tag := .img, src := some "x.png" } []]

def net1 : Net where
  sheet := fun _ u => if u = "a.css" then some "a {}" else none
  image := fun _ _ => none

example : (fetchDocument (fun n => some n) net1 false false sample).map (fun d => d.sheets.map (·.text)) =
      some ["html.css", "counters.css", "print.css", "svg.css", "math.css", "a {}", "p {}"] := by decide +kernel

example : Simple sample := by
  intro p hp ht
  simp only [sample, elementsOf, elements, List.append_nil, List.cons_append, List.nil_append, List.mem_cons,
    List.not_mem_nil, or_false] at hp
  rcases hp with rfl | rfl | rfl | rfl | rfl <;> simp_all [IsText]

/-- Without `Simple`: a `<style>` in an `<img>` (which XHTML can have) is not applied. -/
theorem C46_sheets_fails : ¬ ∀ (bundle : String → Option String) (net : Net) (root : List Node) (d : Doc),
    fetchDocument bundle net false false root = some d →
    ∃ ua author, d.sheets = ua ++ author ∧ (∀ s ∈ ua, s.origin = .userAgent) ∧
      Picked (SheetOf net) (elementsOf root) author := by
  intro h
  obtain ⟨d, hd, hl⟩ := Option.map_eq_some_iff.1 (show (fetchDocument (fun n => some n) net1 false false
    [.el { id := 0, tag := .img } [.el { id := 1, tag := .style } []]]).map (fun d => d.sheets.all (·.origin = .userAgent)) =
      some true by decide +kernel)
  obtain ⟨ua, au, h1, _, h3⟩ := h _ _ _ d hd
  have hm := h3.mem' (fun _ _ _ => sheetOf_inj) (({ id := 1, tag := .style } : Elem), []) (by simp [elementsOf, elements])
    _ (.style rfl)
  have := List.all_eq_true.1 hl _ (by rw [h1]; exact List.mem_append_right _ hm)
  simp at this

/-- `rel` is a list of words of any case for HTML; only the exact text counts here. -/
theorem C46_rel_fails : ¬ ∀ (net : Net) (e : Elem) (u t : String), e.tag = .link → e.rel = some "STYLESHEET" →
    e.href = some u → net.sheet e.id u = some t → ((fetchRes net {} (.el e [])).1.sheets.length = 1) := by
  intro h
  have := h { sheet := fun _ _ => some "", image := fun _ _ => none }
    { id := 0, tag := .link, rel := some "STYLESHEET", href := some "a" } "a" "" rfl rfl rfl rfl
  exact absurd this (by decide +kernel)

/-- The attribute `media` of `<style>` and `<link>` plays no role: a sheet for the screen is used for print. -/
theorem C46_media_fails (net : Net) (d : Doc) (e : Elem) (ks : List Node) (m : Option String) :
    (fetchRes net d (.el { e with media := m } ks)) = fetchRes net d (.el e ks) := by
  simp only [fetchRes]

/-- The built-in sheets are those for HTML, counters, printing, SVG and MathML, with the one for quirks mode and the one
for Markdown when they are called for; none is added twice, and those for quirks and Markdown come after that for HTML. -/
theorem C46_builtins (quirk markdown : Bool) :
    (∀ n, n ∈ builtins quirk markdown ↔ n ∈ ["html.css", "counters.css", "print.css", "svg.css", "math.css"] ∨
      (n = "html-quirk.css" ∧ quirk = true) ∨ (n = "markdown.css" ∧ markdown = true)) ∧
    (builtins quirk markdown).Nodup ∧ (builtins quirk markdown).head? = some "html.css" := by
  refine ⟨fun n => ?_, ?_, ?_⟩
  · cases quirk <;> cases markdown <;> simp [builtins] <;> grind
  · cases quirk <;> cases markdown <;> decide +kernel
  · cases quirk <;> cases markdown <;> decide +kernel

/-! ## C87: pictures -/

/-- Every `<img>` gets its picture, or the placeholder if it cannot be had; one image does not affect the others. -/
theorem C87_pictures_partial {bundle : String → Option String} {net : Net} {quirk markdown : Bool} {root : List Node}
    {d : Doc} (hs : Simple root) (h : fetchDocument bundle net quirk markdown root = some d) :
    d.pics.reverse = (((elementsOf root).map Prod.fst).filter (·.tag = .img)).map fun e => (e.id, pictureOf net e) := by
  unfold fetchDocument at h
  obtain ⟨d0, h0, rfl⟩ := Option.map_eq_some_iff.1 h
  obtain ⟨_, _, h2, _⟩ := addBuiltins_spec bundle _ _ _ h0
  obtain ⟨_, ps, h6, h7⟩ := fetchKids_adds net root d0 hs
  rw [h6, h2, List.append_nil, h7]

example : (fetchDocument (fun n => some n) net1 true false sample).map Doc.pics = some [(4, .placeholder)] := by
  decide +kernel

/-! ## C88: fonts -/

/-- Each face gets a font from the first of its sources that yields one, unless a local font of the system comes
before it; sources that fail do not matter. -/
theorem C88_first_source_partial (net : FontNet) (family : String) (ss : List Source) (e : Entry) :
    loadSources net family ss = some e ↔ ∃ s, First net ss s ∧ Usable net s (e.url, e.face) ∧ e.family = family := by
  induction ss with
  | nil =>
    constructor
    · intro h; cases h
    · rintro ⟨s, h, _⟩; cases h
  | cons s ss ih =>
    have skip : (∀ e, ¬ Usable net s e) → ¬ Here net s → ((∃ t, First net (s :: ss) t ∧ Usable net t (e.url, e.face) ∧
        e.family = family) ↔ ∃ t, First net ss t ∧ Usable net t (e.url, e.face) ∧ e.family = family) := by
      intro h1 h2
      constructor
      · rintro ⟨t, h, h'⟩
        cases h with
        | head h =>
          rcases h with ⟨e, h⟩ | h
          · exact absurd h (h1 e)
          · exact absurd h h2
        | tail _ _ h => exact ⟨t, h, h'⟩
      · rintro ⟨t, h, h'⟩
        exact ⟨t, .tail h1 h2 h, h'⟩
    cases s with
    | «local» n =>
      have hu : ∀ e, ¬ Usable net (.local n) e := by rintro e ⟨_, _, h, _⟩; cases h
      simp only [loadSources]
      by_cases hk : net.known n = true
      · rw [if_pos hk]
        constructor
        · intro h; cases h
        · rintro ⟨t, h, h', _⟩
          cases h with
          | head _ => exact absurd h' (hu _)
          | tail _ h2 _ => exact absurd ⟨n, rfl, hk⟩ h2
      · rw [if_neg hk, ih, skip hu]
        rintro ⟨m, hm, hk'⟩
        cases hm
        exact hk hk'
    | url u fmt =>
      have hh : ¬ Here net (.url u fmt) := by rintro ⟨_, h, _⟩; cases h
      simp only [loadSources]
      split
      · next hf => rw [ih, skip (fun e he => (url_usable.1 he).1 hf) hh]
      · next hf =>
        cases hr : net.resolve u with
        | none =>
          simp only
          rw [ih, skip _ hh]
          intro e he
          have := (url_usable.1 he).2.1
          rw [hr] at this; cases this
        | some a =>
          simp only
          cases hn : net.font a with
          | none =>
            simp only
            rw [ih, skip _ hh]
            intro e he
            have h1 := (url_usable.1 he).2
            rw [hr] at h1
            have := h1.1
            cases this
            rw [hn] at h1; exact nomatch h1.2
          | some p =>
            simp only
            have hu : Usable net (.url u fmt) (a, p) := url_usable.2 ⟨hf, hr, hn⟩
            constructor
            · intro h; cases h
              exact ⟨_, .head (Or.inl ⟨_, hu⟩), hu, rfl⟩
            · rintro ⟨t, h, h', hfam⟩
              cases h with
              | head _ =>
                have h1 := (url_usable.1 h').2
                rw [hr] at h1
                have h2 : a = e.url := Option.some.inj h1.1
                rw [← h2, hn] at h1
                have h3 : p = e.face := Option.some.inj h1.2
                cases e
                simp_all
              | tail h1 _ _ => exact absurd hu (h1 _)

/-- The entries of the database are those of the faces with a name and a source, in order; a face without a usable source
is left out. -/
theorem C88_faces (net : FontNet) (fs : List Face) :
    loadFaces net fs = (fs.filter fun f => f.family ≠ "" ∧ f.sources ≠ []).flatMap fun f =>
      (loadSources net f.family f.sources).toList := by
  induction fs with
  | nil => rfl
  | cons f fs ih =>
    have hv : f.valid = true ↔ (f.family ≠ "" ∧ f.sources ≠ []) := by
      unfold Face.valid
      cases f.sources <;> simp
    simp only [loadFaces]
    by_cases h : f.valid = true
    · rw [if_pos h, List.filter_cons_of_pos (by simpa using hv.1 h), List.flatMap_cons, ih]
    · rw [if_neg h, List.filter_cons_of_neg (by simpa using fun h1 h2 => h (hv.2 ⟨h1, h2⟩)), ih]

def fontNet : FontNet where
  known := fun n => n = "Arial"
  resolve := fun u => if u = "bad" then none else some ("x/" ++ u)
  font := fun a => if a = "x/c" then some 7 else none

example : loadSources fontNet "F" [.local "Other", .url "a" (some "WOFF2"), .url "bad" none, .url "b" (some "truetype"),
    .url "c" none, .url "d" none] = some ⟨"F", "x/c", 7⟩ := by decide +kernel

/-- A local font that is there makes the face have no font at all: nothing is added under its name. -/
theorem C88_local_fails : ¬ ∀ (net : FontNet) (family : String) (ss : List Source), (∃ s, First net ss s) →
    ∃ e, loadSources net family ss = some e ∧ e.family = family := by
  intro h
  obtain ⟨e, he, _⟩ := h fontNet "F" [.local "Arial", .url "c" none] ⟨.local "Arial", .head (Or.inr ⟨_, rfl, rfl⟩)⟩
  exact absurd he (by
    have : loadSources fontNet "F" [.local "Arial", .url "c" none] = none := by decide +kernel
    rw [this]; simp)

/-! ## C89: images that contain each other -/

/-- Fetching an image ends if and only if there is no endless chain of images in images. -/
theorem C89_ends_iff (links : Links) (u : String) :
    (∃ fuel, fetchImage links fuel u = some ()) ↔ Acc (Shows links) u := by
  constructor
  · rintro ⟨fuel, h⟩
    induction fuel generalizing u with
    | zero => simp [fetchImage] at h
    | succ n ih => exact ⟨u, fun v hv => ih v ((fetchImage_succ links n u).1 h v hv)⟩
  · intro h
    induction h with
    | intro u _ ih =>
      cases hl : links u with
      | none => exact ⟨1, by simp [fetchImage, hl]⟩
      | some us =>
        obtain ⟨n, hn⟩ := enough links us fun v hv => ih v ⟨us, hl, hv⟩
        refine ⟨n + 1, (fetchImage_succ links n u).2 ?_⟩
        rintro v ⟨us', h1, h2⟩
        rw [hl] at h1; cases h1
        exact hn v h2

/-- Images whose nesting is bounded are fetched. -/
theorem C89_ends_partial (links : Links) (rank : String → Nat) (h : ∀ v u, Shows links v u → rank v < rank u) (u : String) :
    ∃ fuel, fetchImage links fuel u = some () := by
  refine (C89_ends_iff links u).2 ?_
  have : ∀ n u, rank u < n → Acc (Shows links) u := by
    intro n
    induction n with
    | zero => intro u hu; omega
    | succ n ih => exact fun u hu => ⟨u, fun v hv => ih v (by have := h v u hv; omega)⟩
  exact this _ u (Nat.lt_succ_self _)

example : ∃ (links : Links) (rank : String → Nat), (∀ v u, Shows links v u → rank v < rank u) ∧ Shows links "b" "a" :=
  ⟨fun u => if u = "a" then some ["b", "c"] else none, fun u => if u = "a" then 1 else 0, by
    rintro v u ⟨us, h1, h2⟩
    by_cases hu : u = "a"
    · simp only [hu, if_true] at h1
      cases h1
      simp only [hu, if_true]
      rcases List.mem_cons.1 h2 with rfl | h2
      · decide
      · rcases List.mem_cons.1 h2 with rfl | h2
        · decide
        · cases h2
    · simp [hu] at h1, ⟨_, rfl, List.mem_cons_self⟩⟩

/-- An SVG image that contains itself is fetched for ever. -/
theorem C89_ends_fails : ¬ ∀ (links : Links) (u : String), ∃ fuel, fetchImage links fuel u = some () := by
  intro h
  have := (C89_ends_iff _ _).1 (h (fun _ => some ["a.svg"]) "a.svg")
  have : ∀ u, Acc (Shows fun _ => some ["a.svg"]) u → u = "a.svg" → False := by
    intro u hu
    induction hu with
    | intro u _ ih => exact fun _ => ih "a.svg" ⟨_, rfl, List.mem_cons_self⟩ rfl
  exact this _ (by assumption) rfl

end Verif.Load
