import Verif.Rules.Lemmas
/-!
# The rules of a style sheet: reading
-/
namespace Verif.Rules
open Verif.Css (Sst Tok TT Text u eatWs Blank eatWs_blank)
open Verif.Selector (Str Selector)
open Verif.SelParse (Namespaces str)
open Verif.SelParse.Spec (low Name chars ident)
open Spec

section
variable {δ : Type} {num : Media.Kind → Sst → Option Int} {prop : Sst → Option δ} {m : Media.Media}

/-- What reading these items with enough fuel comes to. -/
def ReadsAs (num : Media.Kind → Sst → Option Int) (prop : Sst → Option δ) (m : Media.Media) (early top : Bool) (ns : Namespaces)
    (items : List Sst) (l : List (Contribution δ)) : Prop :=
  ∃ k, ∀ fuel, k ≤ fuel → ∃ rules ns', parseRules ⟨num, prop, fuel⟩ ns items = .ok (rules, ns') ∧
    (early = false → ns' = ns) ∧ Serves m top rules l

theorem ReadsAs.step {early early' top : Bool} {ns ns₁ : Namespaces} {t : Tok} {pre body rest : List Sst} {c l : List (Contribution δ)}
    (he : early = false → early' = false ∧ ns₁ = ns)
    (h : ∃ k, ∀ fuel, k ≤ fuel → ∃ r, parseRule ⟨num, prop, fuel⟩ ns (.rule t pre body) = .ok (r, ns₁) ∧ Serves m top [r] c)
    (h' : ReadsAs num prop m early' top ns₁ rest l) : ReadsAs num prop m early top ns (.rule t pre body :: rest) (c ++ l) := by
  obtain ⟨k, hk⟩ := h
  obtain ⟨k', hk'⟩ := h'
  refine ⟨max k k', fun fuel hf => ?_⟩
  obtain ⟨r, h1, h2⟩ := hk fuel (by omega)
  obtain ⟨rs, ns', h3, h4, h5⟩ := hk' fuel (by omega)
  refine ⟨r :: rs, ns', ?_, fun hh => ?_, h2.cons h5⟩
  · rw [parseRules, h1]
    simp only [Res.bind, h3]
  · obtain ⟨h6, rfl⟩ := he hh
    exact h4 h6

theorem ReadsAs.skip {early early' top : Bool} {ns ns₁ : Namespaces} {t : Tok} {pre body rest : List Sst} {l : List (Contribution δ)}
    (he : early = false → early' = false ∧ ns₁ = ns)
    (h : ∃ k, ∀ fuel, k ≤ fuel → ∃ r, parseRule ⟨num, prop, fuel⟩ ns (.rule t pre body) = .ok (r, ns₁) ∧ Serves m top [r] [])
    (h' : ReadsAs num prop m early' top ns₁ rest l) : ReadsAs num prop m early top ns (.rule t pre body :: rest) l :=
  ReadsAs.step (c := []) he h h'

theorem nil_known : ∀ w ∈ known, ([] : Text) ≠ 64 :: codes w := by simp

theorem parseStyle_idle (e : Env δ) {ns : Namespaces} {pre : List Sst} (h : NoSelector pre) (body : List Sst) :
    parseStyle e ns pre body = .ok (.style .empty (propsOf e.prop body)) := by rw [parseStyle, noSelector_reads h]

theorem media_reads {top : Bool} {ns : Namespaces} {t : Tok} {pre body : List Sst} {P : Media.Media → Prop}
    {lb : List (Contribution δ)} (hm : Media.Real m) (ht : At true t "media")
    (hq : Media.Spec.MediaText num true pre P) (h : ReadsAs num prop m false false ns body lb) (c : List (Contribution δ))
    (hc : P m ∧ c = lb ∨ ¬ P m ∧ c = []) :
    ∃ k, ∀ fuel, k ≤ fuel → ∃ r, parseRule ⟨num, prop, fuel⟩ ns (.rule t pre body) = .ok (r, ns) ∧ Serves m top [r] c := by
  obtain ⟨k, hk⟩ := h
  refine ⟨max k (3 * sizeOf pre + 2), fun fuel hf => ?_⟩
  obtain ⟨rs, ns', h1, h2, h3⟩ := hk fuel (by omega)
  rcases Media.parseQuery_text fuel hq with e | ⟨q, e, hm'⟩
  · exact absurd e (Media.parseQuery_ends num fuel pre (by omega))
  · refine ⟨.media q rs, ?_, ?_⟩
    · rw [rule_media ⟨num, prop, fuel⟩ ns t pre body (ht.2.2 rfl) e, h1]
      simp only [Res.bind]
      rw [h2 rfl]
    · have hs := hm' m hm
      rcases hc with ⟨hp, rfl⟩ | ⟨hp, rfl⟩
      · have hs := hs.mpr hp
        obtain ⟨n1, n2⟩ := h3.nested rfl
        refine ⟨?_, fun page x hx => ?_, fun _ => ?_, fun _ => ?_, fun _ => ⟨n1, n2⟩⟩
        · simpa [lookupRules, lookupRule, hs] using h3.styles
        · simpa [pageRules, pageRule, hs] using h3.pages page x hx
        · rw [n1]; rfl
        · rw [n2]; rfl
      · have hs : q.match m = false := by
          cases hb : q.match m with
          | false => rfl
          | true => exact absurd (hs.mp hb) hp
        exact .nothing (by simp [lookupRule, hs]; exact .nil) (by simp [pageRule, hs]) rfl rfl

theorem sheet_reads {incl : List Sst → List (Contribution δ)} {supported : List Sst → Prop} {early top : Bool} {ns : Namespaces}
    {items : List Sst} {l : List (Contribution δ)} (hm : Media.Real m)
    (h : Sheet true num prop incl supported m early top ns items l) : ReadsAs num prop m early top ns items l := by
  induction h with
  | nil => exact ⟨0, fun fuel _ => ⟨[], _, by rw [parseRules], fun _ => rfl, .nil m _⟩⟩
  | @style early top ns pre body s ds rest l hs hd _ ih =>
    refine ReadsAs.step (c := [.style s ds]) (fun _ => ⟨rfl, rfl⟩) ⟨0, fun fuel _ => ?_⟩ ih
    obtain ⟨s', h1, -, h2, h3⟩ := SelParse.C154_means_partial ns pre s hs
    refine ⟨.style s' ds, ?_, ?_⟩
    · rw [rule_other _ _ _ _ _ nil_known, parseStyle, h1]
      simp only [Res.bind, propsOf_decls hd]
    · exact ⟨.cons h3 h2 .nil, fun page x hx => by cases hx with | style hx => cases hx; rfl, fun _ => rfl, fun _ => rfl,
        fun _ => ⟨rfl, rfl⟩⟩
  | @invalid early top ns pre body rest l hs _ ih =>
    refine ReadsAs.skip (fun _ => ⟨rfl, rfl⟩) ⟨0, fun fuel _ => ⟨_, ?_, serves_idle (idle_empty (propsOf prop body))⟩⟩ ih
    rw [rule_other _ _ _ _ _ nil_known, parseStyle_idle _ hs]
    rfl
  | media ht hq hp _ _ ihb ih =>
    exact ReadsAs.step (fun _ => ⟨rfl, rfl⟩) (media_reads hm ht hq ihb _ (.inl ⟨hp, rfl⟩)) ih
  | mediaNot ht hq hp _ _ ihb ih =>
    exact ReadsAs.skip (fun _ => ⟨rfl, rfl⟩) (media_reads hm ht hq ihb _ (.inr ⟨hp, rfl⟩)) ih
  | @font early top ns t pre body rest l ht hg htop _ ih =>
    refine ReadsAs.step (c := [.font body]) (fun _ => ⟨rfl, rfl⟩) ⟨0, fun fuel _ => ⟨_, rule_font _ _ _ _ _ (ht.2.2 rfl), ?_⟩⟩ ih
    exact ⟨.nil, fun page x hx => by cases hx with | font hx => cases hx; rfl, fun _ => rfl, fun _ => rfl,
      fun hf => by rw [htop rfl] at hf; cases hf⟩
  | @counter early top ns t g x g' body rest l ht hg hg' htop _ ih =>
    refine ReadsAs.step (c := [.counter x body]) (fun _ => ⟨rfl, rfl⟩) ⟨0, fun fuel _ => ⟨.counter x body, ?_, ?_⟩⟩ ih
    · rw [rule_counter _ _ _ _ _ (ht.2.2 rfl), parseCounter, eatWs_blank hg, ident, eatWs_tok (by simp)]
      rfl
    · exact ⟨.nil, fun page x hx => by cases hx with | counter hx => cases hx; rfl, fun _ => rfl, fun _ => rfl,
        fun hf => by rw [htop rfl] at hf; cases hf⟩
  | @page early top ns t pre p body ds areas rest l ht hp hb _ ih =>
    obtain ⟨k, hk⟩ := pageText_reads hp
    obtain ⟨h1, h2⟩ := pageBody_reads hb
    refine ReadsAs.step (c := [.page p ds areas]) (fun _ => ⟨rfl, rfl⟩) ⟨k, fun fuel hf => ?_⟩ ih
    obtain ⟨sels, h3, h4⟩ := hk fuel hf
    refine ⟨.page sels ds areas, ?_, .nil, fun page x hx => ?_, fun _ => rfl, fun _ => rfl, fun _ => ⟨rfl, rfl⟩⟩
    · rw [rule_page _ _ _ _ _ (ht.2.2 rfl), parsePage]
      simp only [h3, Res.bind, h1, h2]
    · cases hx with
      | yes hp hx => cases hx; simp [pageRules, pageRule, (h4 page).mpr hp]
      | no hp hx =>
        cases hx
        have : pageMatch sels page = false := by
          cases hb : pageMatch sels page with
          | false => rfl
          | true => exact absurd ((h4 page).mp hb) hp
        simp [pageRules, pageRule, this]
  | @imports top ns t pre rest l ht hi _ ih =>
    rw [hi rfl]
    exact ReadsAs.skip (fun h => by cases h) ⟨0, fun fuel _ => ⟨_, rule_import _ _ _ _ _ (ht.2.2 rfl), serves_none (.inl rfl)⟩⟩ ih
  | supports hs => cases hs
  | @supportsNot early top ns t pre body rest l ht _ _ ih =>
    exact ReadsAs.skip (fun _ => ⟨rfl, rfl⟩) ⟨0, fun fuel _ => ⟨_, rule_supports _ _ _ _ _ (ht.2.2 rfl), serves_idle (.inl rfl)⟩⟩ ih
  | @declares top ns t pre p y rest l ht hn _ ih =>
    refine ReadsAs.skip (ns₁ := declare ns p y) (fun h => by cases h) ⟨0, fun fuel _ => ⟨.namespace_ p y, ?_, serves_none (.inr ⟨p, y, rfl⟩)⟩⟩ ih
    rw [rule_namespace _ _ _ _ _ (ht.2.2 rfl), ns_reads hn]
  | misplaced hs => cases hs
  | @other early top ns t pre body rest l ht hk hs _ ih =>
    refine ReadsAs.skip (fun _ => ⟨rfl, rfl⟩) ⟨0, fun fuel _ => ⟨_, ?_, serves_idle (idle_empty (propsOf prop body))⟩⟩ ih
    rw [rule_other _ _ _ _ _ fun w hw e => hk w hw (by rw [e]; exact low_known w hw), parseStyle_idle _ (hs rfl)]
    rfl

end

end Verif.Rules
