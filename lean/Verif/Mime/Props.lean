import Verif.Mime.Spec
/-!
# Properties C253 and C254: what a response is loaded as
-/
namespace Verif.Mime

variable {T : Type} [DecidableEq T]

theorem computed_has (U : Uti T) (ext : String) (r : Response T) (s : Text) : HasType U ext r s (computedType U ext r s) := by
  unfold computedType
  cases ht : r.type with
  | none =>
    simp only [Option.getD_none, if_true]
    split
    · exact .sniffed (by rw [ht]; nofun) ‹_›
    · exact .suffix (by rw [ht]; nofun) ‹_›
  | some t =>
    simp only [Option.getD_some]
    by_cases h : t = U.known .data
    · rw [if_pos h]
      have hd : ∀ t, r.type = some t → t = U.known .data := by
        intro t' h'
        rw [ht] at h'
        cases h'
        exact h
      split
      · exact .sniffed hd ‹_›
      · exact .suffix hd ‹_›
    · rw [if_neg h, if_neg h]
      exact .declared ht h

theorem has_computed {U : Uti T} {ext : String} {r : Response T} {s : Text} {t : T} (h : HasType U ext r s t) :
    computedType U ext r s = t := by
  have hg : (∀ t, r.type = some t → t = U.known .data) → r.type.getD (U.known .data) = U.known .data := by
    intro h
    cases ht : r.type with
    | none => rfl
    | some t => exact h t ht
  unfold computedType
  cases h with
  | declared h1 h2 => simp only [h1, Option.getD_some, if_neg h2]
  | suffix h1 h2 => simp only [hg h1, if_true, if_neg h2]
  | sniffed h1 h2 => simp only [hg h1, if_true, h2]

/-- **C253.** A response has one type, by what the server declares, the suffix of the address and the content, in this order. -/
theorem C253_type (U : Uti T) (ext : String) (r : Response T) (s : Text) :
    ∃ t, HasType U ext r s t ∧ ∀ t', HasType U ext r s t' → t' = t :=
  ⟨_, computed_has U ext r s, fun _ h => (has_computed h).symm⟩

theorem load_some {U : Uti T} {P : Parsers} {url : Text} {ext : String} {r : Response T} {d : Document T} :
    load U P url ext r = some d ↔ ∃ b s, r.body = some b ∧ P.utf8 b = some s ∧ choose U P url (computedType U ext r s) s = some d := by
  unfold load
  simp only [Option.bind_eq_some_iff]
  constructor
  · rintro ⟨b, h1, s, h2, h3⟩
    exact ⟨b, s, h1, h2, h3⟩
  · rintro ⟨b, s, h1, h2, h3⟩
    exact ⟨b, h1, s, h2, h3⟩

theorem choose_url {U : Uti T} {P : Parsers} {url : Text} {t : T} {s : Text} {d : Document T} (h : choose U P url t s = some d) :
    d.url = url ∧ d.type = t := by
  unfold choose at h
  repeat' split at h
  all_goals first
    | (cases h; exact ⟨rfl, rfl⟩)
    | (unfold loadXml at h
       rw [Option.map_eq_some_iff] at h
       obtain ⟨k, _, rfl⟩ := h
       exact ⟨rfl, rfl⟩)
    | cases h

theorem choose_kind {U : Uti T} {P : Parsers} {url : Text} {t : T} {s : Text} {d : Document T} (h : choose U P url t s = some d) :
    ∃ k, k ≠ .data ∧ U.conforms t (U.known k) = true ∧ Shows P s d k ∧ ∀ k', Below k' k → U.conforms t (U.known k') = false := by
  unfold choose at h
  split at h
  · cases h
    exact ⟨.html, nofun, ‹_›, .html rfl rfl, by simp [Below]⟩
  · split at h
    · unfold loadXml at h
      rw [Option.map_eq_some_iff] at h
      obtain ⟨k, hk, rfl⟩ := h
      exact ⟨.xml, nofun, ‹_›, .xml hk rfl, by simp [Below]⟩
    · split at h
      · cases h
        exact ⟨.markdown, nofun, ‹_›, .markdown rfl rfl, by simp [Below]⟩
      · split at h
        · cases h
          refine ⟨.text, nofun, ‹_›, .text ?_ rfl rfl, ?_⟩
          · simp [loadText, textsIn, Tree.textIn]
          · rintro k' (⟨rfl | rfl | rfl, _⟩ | ⟨_, h | h⟩) <;> first | exact Bool.eq_false_iff.2 ‹_› | cases h
        · split at h
          · rename_i hm
            cases h
            rw [Bool.or_eq_true] at hm
            rcases hm with hm | hm
            · refine ⟨.image, nofun, hm, .image rfl ?_ rfl, ?_⟩
              · simp [loadMedia, picturesIn, Tree.pictures]
              · rintro k' (⟨rfl | rfl | rfl, _⟩ | ⟨rfl, _⟩) <;> exact Bool.eq_false_iff.2 ‹_›
            · refine ⟨.av, nofun, hm, .av rfl ?_ rfl, ?_⟩
              · simp [loadMedia, picturesIn, Tree.pictures]
              · rintro k' (⟨rfl | rfl | rfl, _⟩ | ⟨rfl, _⟩) <;> exact Bool.eq_false_iff.2 ‹_›
          · cases h

/-- **C253.** What is loaded has the address that was asked for and the type of the response, and shows the text of the response
as a resource of a kind that this type belongs to; as text only if it is not HTML, XML or Markdown, and as a picture only if it is
none of these and not text. -/
theorem C253_loaded (U : Uti T) (P : Parsers) (url : Text) (ext : String) (r : Response T) (d : Document T)
    (h : load U P url ext r = some d) :
    ∃ b s, r.body = some b ∧ P.utf8 b = some s ∧ d.url = url ∧ HasType U ext r s d.type ∧
      ∃ k, k ≠ .data ∧ U.conforms d.type (U.known k) = true ∧ Shows P s d k ∧
        ∀ k', Below k' k → U.conforms d.type (U.known k') = false := by
  obtain ⟨b, s, h1, h2, h3⟩ := load_some.1 h
  obtain ⟨h4, h5⟩ := choose_url h3
  refine ⟨b, s, h1, h2, h4, h5 ▸ computed_has U ext r s, ?_⟩
  rw [h5]
  exact choose_kind h3

/-- **C253.** Nothing is loaded only if there is no body, if it is not UTF-8, if its type is of none of the kinds or if it is
of an XML type and not well-formed. -/
theorem C253_error (U : Uti T) (P : Parsers) (url : Text) (ext : String) (r : Response T) :
    load U P url ext r = none ↔ r.body = none ∨ ∃ b, r.body = some b ∧ (P.utf8 b = none ∨ ∃ s t, P.utf8 b = some s ∧ HasType U ext r s t ∧
      ((∀ k, k ≠ .data → U.conforms t (U.known k) = false) ∨
        (U.conforms t (U.known .xml) = true ∧ U.conforms t (U.known .html) = false ∧ P.xml s = none))) := by
  unfold load
  cases hb : r.body with
  | none => simp
  | some b =>
    cases hs : P.utf8 b with
    | none => simp [hs]
    | some s =>
      simp only [Option.bind_some, hs, reduceCtorEq, false_or, Option.some.injEq]
      have key : choose U P url (computedType U ext r s) s = none ↔
          ((∀ k, k ≠ .data → U.conforms (computedType U ext r s) (U.known k) = false) ∨
          (U.conforms (computedType U ext r s) (U.known .xml) = true ∧ U.conforms (computedType U ext r s) (U.known .html) = false ∧
            P.xml s = none)) := by
        generalize computedType U ext r s = t
        have all : (∀ k, k ≠ .data → U.conforms t (U.known k) = false) ↔ U.conforms t (U.known .html) = false ∧
            U.conforms t (U.known .xml) = false ∧ U.conforms t (U.known .markdown) = false ∧ U.conforms t (U.known .text) = false ∧
            U.conforms t (U.known .image) = false ∧ U.conforms t (U.known .av) = false := by
          constructor
          · intro h
            exact ⟨h _ nofun, h _ nofun, h _ nofun, h _ nofun, h _ nofun, h _ nofun⟩
          · rintro ⟨h1, h2, h3, h4, h5, h6⟩ k hk
            cases k with
            | data => exact absurd rfl hk
            | html => exact h1
            | xml => exact h2
            | markdown => exact h3
            | text => exact h4
            | image => exact h5
            | av => exact h6
        rw [all]
        unfold choose loadXml
        cases U.conforms t (U.known .html) <;> cases U.conforms t (U.known .xml) <;> cases U.conforms t (U.known .markdown) <;>
          cases U.conforms t (U.known .text) <;> cases U.conforms t (U.known .image) <;> cases U.conforms t (U.known .av) <;> simp
      rw [key]
      constructor
      · intro h
        exact ⟨b, rfl, .inr ⟨s, _, hs, computed_has U ext r s, h⟩⟩
      · rintro ⟨b', rfl, h | ⟨s', t, h1, h2, h3⟩⟩
        · rw [hs] at h; cases h
        · rw [hs] at h1
          cases h1
          rw [has_computed h2]
          exact h3

/-- Types for the examples: the known ones, SVG and a variant of Markdown. -/
inductive Sample where
  | known (k : Known) | svg | commonmark
deriving DecidableEq

def sampleUti : Uti Sample where
  known := .known
  conforms a b := match a, b with
    | .known .html, .known .text | .known .xml, .known .text | .known .markdown, .known .text => true
    | .svg, .known .xml | .svg, .known .image | .svg, .known .text => true
    | .commonmark, .known .markdown | .commonmark, .known .text => true
    | a, b => decide (a = b)
  suffix s := if s = "svg" then .svg else if s = "md" then .known .markdown else .known .data
  sniff s := if s.take 1 = [60] then .known .html else .known .data

def sampleParsers : Parsers where
  utf8 b := if b = [195, 169] then some [233] else if b.all (· < 128) then some b else none
  html s := (true, [.el "html" [] [.text s]])
  xml s := if s.take 1 = [60] then some [.el "svg" [] []] else none
  markdown s := s

/-- A picture in SVG of an unknown type is loaded as XML by its suffix, not as a picture. -/
example : ∃ d, load sampleUti sampleParsers [97] "svg" ⟨some (.known .data), none, some [60]⟩ = some d ∧ d.type = .svg ∧
    Shows sampleParsers [60] d .xml := ⟨_, rfl, rfl, .xml rfl rfl⟩

example : load sampleUti sampleParsers [97] "" ⟨none, none, some [97]⟩ = none := rfl

/-- The declared type is not overruled by the suffix. -/
example : ∃ d, load sampleUti sampleParsers [97] "svg" ⟨some (.known .text), none, some [60]⟩ = some d ∧
    Shows sampleParsers [60] d .text := ⟨_, rfl, .text rfl rfl rfl⟩

/-- **C253.** The encoding that the server declares is not looked at: two bytes of Latin-1, `Ã©`, become the one character `é`
that they are in UTF-8. -/
theorem C253_charset_fails (U : Uti T) (P : Parsers) (h8 : P.utf8 [195, 169] = some [233]) (url : Text) (ext : String)
    (ht : U.known .text ≠ U.known .data)
    (hc : U.conforms (U.known .text) (U.known .text) = true ∧ ∀ k, k = .html ∨ k = .xml ∨ k = .markdown →
      U.conforms (U.known .text) (U.known k) = false) :
    ∃ d, load U P url ext ⟨some (U.known .text), some "iso-8859-1", some [195, 169]⟩ = some d ∧ textsIn d.kids = [233] := by
  refine ⟨loadText url (U.known .text) [233], ?_, rfl⟩
  simp only [load, Option.bind_some, h8, computedType, Option.getD_some, if_neg ht, choose, hc.1, hc.2 _ (.inl rfl),
    hc.2 _ (.inr (.inl rfl)), hc.2 _ (.inr (.inr rfl)), Bool.false_eq_true, if_false, if_true]

example : sampleParsers.utf8 [195, 169] = some [233] := rfl

/-! ## C254 -/

/-- **C254 (in part).** The source of a document is shown as it is, in an element `pre`, whatever its type. -/
theorem C254_source_partial (U : Uti T) (P : Parsers) (url : Text) (r : Response T) (d : Document T) (h : viewSource U P url r = some d) :
    ∃ b s, r.body = some b ∧ P.utf8 b = some s ∧ textsIn d.kids = s ∧ picturesIn d.kids = [] ∧
      d.kids = [.el "body" [] [.el "pre" [] [.text s]]] := by
  unfold viewSource at h
  simp only [Option.bind_eq_some_iff, Option.map_eq_some_iff] at h
  obtain ⟨b, h1, s, h2, rfl⟩ := h
  refine ⟨b, s, h1, h2, ?_, rfl, rfl⟩
  simp [textsIn, Tree.textIn]

/-- **C254.** A text has the root `body`, without an element `html` around it, and is not in an element `pre`. -/
theorem C254_text_fails (U : Uti T) (P : Parsers) (url : Text) (t : T) (s : Text) (d : Document T) (h : choose U P url t s = some d)
    (hc : ∀ k, k = .html ∨ k = .xml ∨ k = .markdown → U.conforms t (U.known k) = false) (hx : U.conforms t (U.known .text) = true) :
    d.kids = [.el "body" [] [.text s]] := by
  simp only [choose, hx, hc _ (.inl rfl), hc _ (.inr (.inl rfl)), hc _ (.inr (.inr rfl)), Bool.false_eq_true, if_false, if_true,
    Option.some.injEq] at h
  subst h
  rfl

example : ∃ d, choose sampleUti sampleParsers [] (.known .text) [97, 10, 98] = some d := ⟨_, rfl⟩

/-- **C254 (in part).** The sheet for Markdown is used for documents of that type, and that for quirks mode for HTML that asks for
it; all other documents have the same five built-in sheets. -/
theorem C254_sheets_partial (U : Uti T) (d : Document T) :
    ("markdown.css" ∈ sheets U d ↔ d.type = U.known .markdown) ∧ ("html-quirk.css" ∈ sheets U d ↔ d.quirk = true) ∧
    (d.type ≠ U.known .markdown → d.quirk = false → sheets U d = ["html.css", "counters.css", "print.css", "svg.css", "math.css"]) := by
  unfold sheets Verif.Load.builtins
  by_cases h : d.type = U.known .markdown <;> cases hq : d.quirk <;> simp [h]

/-- **C254.** A variant of Markdown is loaded as Markdown, but without its sheet. -/
theorem C254_variant_fails : ∃ d, choose sampleUti sampleParsers [] .commonmark [97] = some d ∧ Shows sampleParsers [97] d .markdown ∧
    "markdown.css" ∉ sheets sampleUti d :=
  ⟨_, rfl, .markdown rfl rfl, by decide⟩

end Verif.Mime
