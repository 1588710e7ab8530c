import Verif.Rules.Spec
import Verif.Page.Props
import Verif.Media.Props
/-!
# The rules of a style sheet: lemmas
-/
namespace Verif.Rules
open Verif.Css (Sst Tok TT Text u eatWs Blank eatWs_blank)
open Verif.Selector (Str Selector)
open Verif.SelParse (Namespaces str)
open Verif.SelParse.Spec (low Name chars ident)
open Verif.Page (Pseudo Sel)
open Verif.Page.Spec (pseudoName written)
open Spec

theorem eatWs_all {g : List Sst} (h : Blank g) : eatWs g = [] := by
  have := eatWs_blank h []
  simpa [eatWs] using this

/-! ## Pages -/

/-- Pseudo-classes as they are written. -/
def pw (ps : List Pseudo) : List Sst := ps.flatMap fun p => [.tok ⟨.colon, u ":"⟩, .tok ⟨.ident, pseudoName p⟩]

theorem parsePseudos_tail (n : Nat) (ps : List Pseudo) (g : List Sst) (hg : Blank g) (h : ps.length < n) :
    Page.parsePseudos n (eatWs (pw ps ++ g)) = .ok (ps, []) := by
  induction ps generalizing n with
  | nil =>
    cases n with
    | zero => simp at h
    | succ n => simp [pw, eatWs_all hg, Page.parsePseudos, Page.parsePseudo]
  | cons p ps ih =>
    cases n with
    | zero => simp at h
    | succ n =>
      have hw : pw (p :: ps) ++ g = .tok ⟨.colon, u ":"⟩ :: .tok ⟨.ident, pseudoName p⟩ :: (pw ps ++ g) := by simp [pw]
      have h1 : eatWs (Sst.tok ⟨.colon, u ":"⟩ :: .tok ⟨.ident, pseudoName p⟩ :: (pw ps ++ g)) =
        .tok ⟨.colon, u ":"⟩ :: .tok ⟨.ident, pseudoName p⟩ :: (pw ps ++ g) := by unfold eatWs; rfl
      have h2 : eatWs (Sst.tok ⟨.ident, pseudoName p⟩ :: (pw ps ++ g)) = .tok ⟨.ident, pseudoName p⟩ :: (pw ps ++ g) := by
        unfold eatWs; rfl
      have h3 : Page.parsePseudo (Sst.tok ⟨.colon, u ":"⟩ :: .tok ⟨.ident, pseudoName p⟩ :: (pw ps ++ g)) =
          .ok (some (p, pw ps ++ g)) := by
        unfold Page.parsePseudo
        simp only [h2]
        cases p <;> rfl
      rw [hw, h1, Page.parsePseudos, h3]
      simp only [ih n (by simpa using h)]

theorem parseList_one (s : Sel) (g g' : List Sst) (hg : Blank g) (hg' : Blank g') (hs : s.name ≠ [] ∨ s.pseudos ≠ [])
    (fuel : Nat) (hf : s.pseudos.length + 1 < fuel) : Page.parseList fuel (g ++ (written s ++ g')) = .ok [s] := by
  obtain ⟨name, ps⟩ := s
  obtain ⟨n, rfl⟩ : ∃ n, fuel = n + 2 := ⟨fuel - 2, by simp only at hf; omega⟩
  have hp := parsePseudos_tail (n + 2) ps g' hg' (by simp only at hf; omega)
  rw [Page.parseList, eatWs_blank hg]
  cases name with
  | nil =>
    cases ps with
    | nil => simp at hs
    | cons p ps =>
      have hw : written ⟨[], p :: ps⟩ ++ g' = pw (p :: ps) ++ g' := by simp [written, pw]
      have h0 : ∃ r, pw (p :: ps) ++ g' = .tok ⟨.colon, u ":"⟩ :: r := ⟨_, by simp [pw]; rfl⟩
      obtain ⟨r, hr⟩ := h0
      have he : eatWs (Sst.tok ⟨.colon, u ":"⟩ :: r) = Sst.tok ⟨.colon, u ":"⟩ :: r := by unfold eatWs; rfl
      rw [hr, he] at hp
      rw [hw, hr, he]
      unfold Page.parseLoop Page.parse
      have hn : Page.parseName (Sst.tok ⟨.colon, u ":"⟩ :: r) = ([], Sst.tok ⟨.colon, u ":"⟩ :: r) := rfl
      simp only [hn, he, hp]
      rfl
  | cons a l =>
    have hw : written ⟨a :: l, ps⟩ ++ g' = .tok ⟨.ident, a :: l⟩ :: (pw ps ++ g') := by simp [written, pw]
    have he : eatWs (Sst.tok ⟨.ident, a :: l⟩ :: (pw ps ++ g')) = .tok ⟨.ident, a :: l⟩ :: (pw ps ++ g') := by unfold eatWs; rfl
    have hn : Page.parseName (Sst.tok ⟨.ident, a :: l⟩ :: (pw ps ++ g')) = (a :: l, pw ps ++ g') := rfl
    rw [hw, he]
    unfold Page.parseLoop Page.parse
    simp only [hn, hp]
    rfl

theorem pageText_reads {pre : List Sst} {p : Page.Page → Prop} (h : PageText true pre p) :
    ∃ k, ∀ fuel, k ≤ fuel → ∃ sels, Page.parseList fuel pre = .ok sels ∧ ∀ page, pageMatch sels page = true ↔ p page := by
  cases h with
  | all hg =>
    refine ⟨1, fun fuel hf => ⟨[], ?_, by simp [pageMatch]⟩⟩
    obtain ⟨n, rfl⟩ : ∃ n, fuel = n + 1 := ⟨fuel - 1, by omega⟩
    rw [Page.parseList, eatWs_all hg]
    rfl
  | @one g s g' hg hg' hs hf =>
    refine ⟨s.pseudos.length + 2, fun fuel hk => ⟨[s], parseList_one s g g' hg hg' hs fuel (by omega), fun page => ?_⟩⟩
    rw [← Page.C25_first_partial s (hf rfl) page]
    simp [pageMatch]

/-! ## Blocks -/

theorem propsOf_decls {δ : Type} {prop : Sst → Option δ} {body : List Sst} {ds : List δ} (h : Decls prop body ds) :
    propsOf prop body = ds := by
  induction h with
  | nil => rfl
  | known hp _ ih => simp only [propsOf] at ih ⊢; simp [hp, ih]
  | unknown hp _ ih => simp only [propsOf] at ih ⊢; simp [hp, ih]

theorem areas_known : ∀ b ∈ boxes, (areaNames.map u).contains (codes b) = true := by decide

theorem low_boxes : ∀ b ∈ boxes, (64 :: codes b).map low = 64 :: codes b := by decide

theorem areas_split : ∀ b ∈ areaNames, b ∈ boxes ∨ b ∈ vendor := by decide

theorem pageBody_reads {δ : Type} {prop : Sst → Option δ} {body : List Sst} {ds : List δ} {a : List (Text × List δ)}
    (h : PageBody true prop body ds a) : propsOf prop body = ds ∧ areasOf prop body = a := by
  induction h with
  | nil => exact ⟨rfl, rfl⟩
  | known hp _ ih => simp only [propsOf, areasOf] at ih ⊢; simp [hp, ih]
  | unknown hp _ ih => simp only [propsOf, areasOf] at ih ⊢; simp [hp, ih]
  | @box t pre c b ds r l a hb ht hd _ ih =>
    have hp : parseArea prop t c = some (codes b, ds) := by
      rw [parseArea, ht.2.2 rfl, List.drop_succ_cons, List.drop_zero, if_pos (areas_known b hb), propsOf_decls hd]
    simp only [propsOf, areasOf] at ih ⊢
    simp [hp, ih, ht.1]
  | @other t pre c r l a ht hb hs _ ih =>
    have hp : parseArea prop t c = none := by
      obtain ⟨⟨x, hx⟩, hv⟩ := hs rfl
      rw [parseArea, if_neg]
      simp only [hx, List.drop_succ_cons, List.drop_zero, List.contains_iff_mem, List.mem_map, not_exists, not_and]
      intro w hw e
      have e' : t.data = 64 :: codes w := by rw [hx, ← e]; rfl
      rcases areas_split w hw with hw | hw
      · exact hb w hw (by rw [e']; exact low_boxes w hw)
      · exact hv w hw e'
    simp only [propsOf, areasOf] at ih ⊢
    simp [hp, ih]

/-! ## Namespaces -/

theorem eatWs_tok {t : Tok} (h : t.type ≠ .ws) (r : List Sst) : eatWs (.tok t :: r) = .tok t :: r := by
  simp [eatWs, Sst.is, h]

theorem eatWs_func (t : Tok) (c r : List Sst) : eatWs (.func t c :: r) = .func t c :: r := by
  simp [eatWs, Sst.is]

theorem low_lower (c : Nat) : low c = Css.lower c := rfl

theorem uri_reads {s : Sst} {y : Str} (h : UriText s y) (r : List Sst) :
    parseUri (s :: r) = some y ∧ eatWs (s :: r) = s :: r ∧ (∀ t, s = .tok t → t.type ≠ .ident) := by
  cases h with
  | string => exact ⟨rfl, eatWs_tok (by simp) r, by rintro t ⟨⟩; simp⟩
  | @url x =>
    refine ⟨?_, eatWs_tok (by simp) r, by rintro t ⟨⟩; simp⟩
    have h1 : (codes "url(" ++ x ++ codes ")").length = x.length + 5 := by
      have : (codes "url(").length = 4 ∧ (codes ")").length = 1 := by decide
      simp [this]; omega
    have h2 : (codes "url(" ++ x ++ codes ")").drop 4 = x ++ codes ")" := by
      rw [List.append_assoc, List.drop_left' (by decide)]
    have h3 : ¬ x.length + 5 < 5 := by omega
    simp only [parseUri, parseUrl, h1, h2, if_neg h3]
    simp [str, chars, List.take_left']
  | @func f g x g' hf hg hg' =>
    refine ⟨?_, eatWs_func _ _ r, by rintro t ⟨⟩⟩
    have : Tok.same ⟨.func, f⟩ ⟨.func, u "url("⟩ = true := by
      have h1 : f.map Css.lower = (u "url(").map Css.lower := by
        rw [show f.map Css.lower = f.map low from rfl, hf]; decide
      simp [Tok.same, Css.eqCi, h1]
    simp [parseUri, parseUrl, this, eatWs_blank hg, eatWs_tok, str, chars]

theorem name_chars {p : Text} {q : Str} (h : Name true p q) : q = str p := by
  cases h with
  | plain => rfl
  | escaped h => cases h

theorem ns_reads {δ : Type} {pre : List Sst} {p : Option Str} {y : Str} (h : NsText true pre p y) (ns : Namespaces) :
    parseNamespace (δ := δ) ns pre = .ok (.namespace_ p y, declare ns p y) := by
  cases h with
  | @default g s y g' hg hg' hu =>
    obtain ⟨h1, h2, h3⟩ := uri_reads hu g'
    unfold parseNamespace
    rw [eatWs_blank hg, h2]
    have : nsPrefix s g' = (none, s :: g') := by
      unfold nsPrefix
      cases s with
      | tok t => simp [h3 t rfl]
      | _ => rfl
    simp only [this, h2, h1, declare]
  | @named g p q g' s y g'' hg hg' hg'' hn hu =>
    obtain ⟨h1, h2, h3⟩ := uri_reads hu g''
    unfold parseNamespace
    rw [eatWs_blank hg, ident, eatWs_tok (by simp)]
    simp only [nsPrefix, if_true, eatWs_blank hg', h2, h1, declare, name_chars hn]

/-! ## Selectors -/

theorem noSelector_reads {pre : List Sst} (h : NoSelector pre) (ns : Namespaces) : SelParse.read ns pre = .err := by
  obtain ⟨g, c, rfl, hg, hc⟩ := h
  exact SelParse.C159_start_partial ns g hg c hc

theorem idle_empty {δ : Type} (ds : List δ) : Idle (Selector.empty, ds) := .inr fun k data n e pe h => by simp [Selector.Means] at h

/-! ## One rule -/

section
variable {δ : Type} (e : Env δ) (ns : Namespaces) (t : Tok) (pre content : List Sst)

theorem rule_media (h : t.data = 64 :: codes "media") {q : Media.Query} (hq : Media.parseQuery e.num e.fuel pre = .ok q) :
    parseRule e ns (.rule t pre content) = (parseRules e ns content).bind fun r => .ok (.media q r.1, r.2) := by
  rw [parseRule, h, if_pos (by decide), hq]

theorem rule_import (h : t.data = 64 :: codes "import") : parseRule e ns (.rule t pre content) = .ok (.import_, ns) := by
  rw [parseRule, h, if_neg (by decide), if_pos (by decide)]

theorem rule_font (h : t.data = 64 :: codes "font-face") : parseRule e ns (.rule t pre content) = .ok (.font content, ns) := by
  rw [parseRule, h, if_neg (by decide), if_neg (by decide), if_pos (by decide)]

theorem rule_counter (h : t.data = 64 :: codes "counter-style") : parseRule e ns (.rule t pre content) =
    (parseCounter pre content).bind fun r => .ok (r, ns) := by
  rw [parseRule, h, if_neg (by decide), if_neg (by decide), if_neg (by decide), if_pos (by decide)]

theorem rule_page (h : t.data = 64 :: codes "page") : parseRule e ns (.rule t pre content) =
    (parsePage e pre content).bind fun r => .ok (r, ns) := by
  rw [parseRule, h, if_neg (by decide), if_neg (by decide), if_neg (by decide), if_neg (by decide), if_pos (by decide)]

theorem rule_supports (h : t.data = 64 :: codes "supports") : parseRule e ns (.rule t pre content) =
    .ok (.style (.type ⟨.universal, none⟩) [], ns) := by
  rw [parseRule, h, if_neg (by decide), if_neg (by decide), if_neg (by decide), if_neg (by decide), if_neg (by decide),
    if_pos (by decide)]

theorem rule_namespace (h : t.data = 64 :: codes "namespace") : parseRule e ns (.rule t pre content) = parseNamespace ns pre := by
  rw [parseRule, h, if_neg (by decide), if_neg (by decide), if_neg (by decide), if_neg (by decide), if_neg (by decide),
    if_neg (by decide), if_pos (by decide)]

/-- Any other rule is read as a style rule. -/
theorem rule_other (h : ∀ w ∈ known, t.data ≠ 64 :: codes w) : parseRule e ns (.rule t pre content) =
    (parseStyle e ns pre content).bind fun r => .ok (r, ns) := by
  have hk : ∀ w v, v ∈ known → u w = 64 :: codes v → t.data ≠ u w := fun w v hv hw => by rw [hw]; exact h v hv
  rw [parseRule, if_neg (hk "@media" "media" (by decide) (by decide)),
    if_neg (hk "@import" "import" (by decide) (by decide)),
    if_neg (hk "@font-face" "font-face" (by decide) (by decide)),
    if_neg (hk "@counter-style" "counter-style" (by decide) (by decide)),
    if_neg (hk "@page" "page" (by decide) (by decide)),
    if_neg (hk "@supports" "supports" (by decide) (by decide)),
    if_neg (hk "@namespace" "namespace" (by decide) (by decide))]

end

theorem low_known : ∀ w ∈ known, (64 :: codes w).map low = 64 :: codes w := by decide

/-! ## Lists of rules -/

theorem Same.append {δ : Type} {a a' b b' : List (Selector × List δ)} (h : Same a' a) (h' : Same b' b) : Same (a' ++ b') (a ++ b) := by
  induction h with
  | nil => exact h'
  | cons ha hs _ ih => exact .cons ha hs ih
  | idle hi _ ih => exact .idle hi ih

theorem styles_append {δ : Type} (a b : List (Contribution δ)) : styles (a ++ b) = styles a ++ styles b := by
  induction a with
  | nil => rfl
  | cons x a ih => cases x <;> simp [styles, ih]

theorem counters_append {δ : Type} (a b : List (Contribution δ)) : counters (a ++ b) = counters a ++ counters b := by
  induction a with
  | nil => rfl
  | cons x a ih => cases x <;> simp [counters, ih]

theorem fonts_append {δ : Type} (a b : List (Contribution δ)) : fonts (a ++ b) = fonts a ++ fonts b := by
  induction a with
  | nil => rfl
  | cons x a ih => cases x <;> simp [fonts, ih]

theorem pagesOf_append {δ : Type} {page : Page.Page} {a b : List (Contribution δ)} {x : List (List δ × List (Text × List δ))}
    (h : PagesOf page (a ++ b) x) : ∃ y z, x = y ++ z ∧ PagesOf page a y ∧ PagesOf page b z := by
  induction a generalizing x with
  | nil => exact ⟨[], x, rfl, .nil, h⟩
  | cons c a ih =>
    cases h with
    | yes hp h => obtain ⟨y, z, rfl, h1, h2⟩ := ih h; exact ⟨_, z, rfl, .yes hp h1, h2⟩
    | no hp h => obtain ⟨y, z, rfl, h1, h2⟩ := ih h; exact ⟨_, z, rfl, .no hp h1, h2⟩
    | style h => obtain ⟨y, z, rfl, h1, h2⟩ := ih h; exact ⟨_, z, rfl, .style h1, h2⟩
    | counter h => obtain ⟨y, z, rfl, h1, h2⟩ := ih h; exact ⟨_, z, rfl, .counter h1, h2⟩
    | font h => obtain ⟨y, z, rfl, h1, h2⟩ := ih h; exact ⟨_, z, rfl, .font h1, h2⟩

theorem pagesOf_exists {δ : Type} (page : Page.Page) (l : List (Contribution δ)) : ∃ x, PagesOf page l x := by
  induction l with
  | nil => exact ⟨[], .nil⟩
  | cons c l ih =>
    obtain ⟨x, hx⟩ := ih
    cases c with
    | style s ds => exact ⟨x, .style hx⟩
    | page p ds a =>
      by_cases hp : p page
      · exact ⟨_, .yes hp hx⟩
      · exact ⟨_, .no hp hx⟩
    | counter n b => exact ⟨x, .counter hx⟩
    | font b => exact ⟨x, .font hx⟩

theorem lookupRules_append {δ : Type} (m : Media.Media) (a b : List (Rule δ)) : lookupRules m (a ++ b) = lookupRules m a ++ lookupRules m b := by
  induction a with
  | nil => rfl
  | cons x a ih => simp [lookupRules, ih]

/-- These rules are used for these contributions. -/
structure Serves {δ : Type} (m : Media.Media) (top : Bool) (rules : List (Rule δ)) (l : List (Contribution δ)) : Prop where
  styles : Same (lookupRules m rules) (styles l)
  pages : ∀ page x, PagesOf page l x → pageRules m page rules = x
  counters : top = true → counterRules rules = counters l
  fonts : top = true → fontRules rules = fonts l
  nested : top = false → Spec.counters l = [] ∧ Spec.fonts l = []

theorem Serves.nil {δ : Type} (m : Media.Media) (top : Bool) : Serves m top ([] : List (Rule δ)) [] :=
  ⟨.nil, fun _ _ h => by cases h; rfl, fun _ => rfl, fun _ => rfl, fun _ => ⟨rfl, rfl⟩⟩

theorem Serves.cons {δ : Type} {m : Media.Media} {top : Bool} {r : Rule δ} {rs : List (Rule δ)} {c l : List (Contribution δ)}
    (h : Serves m top [r] c) (h' : Serves m top rs l) : Serves m top (r :: rs) (c ++ l) where
  styles := by
    have := Same.append h.styles h'.styles
    simpa [lookupRules, styles_append] using this
  pages := fun page x hx => by
    obtain ⟨y, z, rfl, h1, h2⟩ := pagesOf_append hx
    have h3 := h.pages page y h1
    simp only [pageRules, List.append_nil] at h3 ⊢
    rw [h3, h'.pages page z h2]
  counters := fun ht => by
    rw [counters_append, ← h.counters ht, ← h'.counters ht]
    simp [counterRules, List.filterMap_cons]
    split <;> rfl
  fonts := fun ht => by
    rw [fonts_append, ← h.fonts ht, ← h'.fonts ht]
    simp [fontRules, List.filterMap_cons]
    split <;> rfl
  nested := fun ht => by simp [counters_append, fonts_append, h.nested ht, h'.nested ht]

/-- A rule that contributes nothing. -/
theorem Serves.nothing {δ : Type} {m : Media.Media} {top : Bool} {r : Rule δ} (h : Same (lookupRule m r) [])
    (hp : ∀ page, pageRule m page r = []) (hc : counterRules [r] = []) (hf : fontRules [r] = []) : Serves m top [r] [] where
  styles := by simpa [lookupRules, Spec.styles] using h
  pages := fun page x hx => by cases hx; simp [pageRules, hp]
  counters := fun _ => hc
  fonts := fun _ => hf
  nested := fun _ => ⟨rfl, rfl⟩

theorem serves_none {δ : Type} {m : Media.Media} {top : Bool} {r : Rule δ} (h : r = .import_ ∨ ∃ p y, r = .namespace_ p y) :
    Serves m top [r] [] := by
  rcases h with rfl | ⟨p, y, rfl⟩
  · exact .nothing .nil (fun _ => rfl) rfl rfl
  · exact .nothing .nil (fun _ => rfl) rfl rfl

theorem serves_idle {δ : Type} {m : Media.Media} {top : Bool} {s : Selector} {ds : List δ} (h : Idle (s, ds)) :
    Serves m top [.style s ds] [] := .nothing (.idle h .nil) (fun _ => rfl) rfl rfl

end Verif.Rules
