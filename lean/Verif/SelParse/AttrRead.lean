import Verif.SelParse.AnbRead
import Verif.SelParse.Faults
/-!
# Names and attribute selectors are read as written
-/
namespace Verif.SelParse
open Verif.Css (Sst Tok TT Text u eatWs lower eqCi)
open Verif.Selector (Str Selector QSel NsPat AnB AttrSel AttrMatch Comb)
open Spec (Gap Keyword Name Bound TypeText AttrName AttrOp AttrVal AttrFlag AttrText ident delim number)

/-- No bar comes next. -/
def NoBar (c : List Sst) : Prop := skipDelim "|" c = none

theorem isDelim_self {d : String} {c : Nat} (h : u d = [c]) : isDelim d (delim c) = true := by
  simp [isDelim, delim, Tok.same, eqCi, h]

theorem isDelim_ne {d : String} {c x : Nat} (h : u d = [c]) (hl : lower x ≠ lower c) : isDelim d (delim x) = false := by
  simp [isDelim, delim, Tok.same, eqCi, h, hl]

theorem noBar_nil : NoBar [] := rfl

theorem noBar_cons {s : Sst} {r : List Sst} (h : isDelim "|" s = false) : NoBar (s :: r) := by
  simp [NoBar, skipDelim, h]

theorem noBar_tok {t : Tok} {r : List Sst} (h : t.type ≠ .delim) : NoBar (.tok t :: r) :=
  noBar_cons (by simp [isDelim, Tok.same, h])

theorem noBar_delim {c : Nat} {r : List Sst} (h : lower c ≠ 124) : NoBar (delim c :: r) :=
  noBar_cons (isDelim_ne (c := 124) (by decide) (by simpa [lower] using h))

theorem noBar_gap {g : List Sst} (h : Gap g) {r : List Sst} (hr : NoBar r) : NoBar (g ++ r) := by
  rcases h with rfl | ⟨d, rfl⟩
  · exact hr
  · exact noBar_tok (by simp)

theorem name_strict {x : Text} {n : Str} (h : Name true x n) : n = str x := by
  cases h with
  | plain => rfl
  | escaped h => cases h

theorem lookup_bound {ns : Namespaces} {p y : Str} (h : Bound ns p y) : ns.lookup p = some y := by
  obtain ⟨a, b, he, ha⟩ := h
  unfold Namespaces.lookup
  rw [he, List.find?_append]
  have : a.find? (fun q => q.1 == p) = none := by
    rw [List.find?_eq_none]
    intro q hq
    simpa using ha q hq
  rw [this]
  simp

theorem prefix_ident (x : Text) (r : List Sst) : prefixOf (ident x :: r) = (.ident (str x), r) := by
  simp [prefixOf, ident, tokOf]

theorem prefix_star (r : List Sst) : prefixOf (delim 42 :: r) = (.star, r) := by
  have : isDelim "*" (delim 42) = true := isDelim_self (by decide)
  simp only [prefixOf, this, if_true]
  simp [delim, tokOf]

theorem prefix_bar (r : List Sst) : prefixOf (delim 124 :: r) = (.omitted, delim 124 :: r) := by
  have : isDelim "*" (delim 124) = false := isDelim_ne (c := 42) (by decide) (by decide)
  simp only [prefixOf, this]
  simp [delim, tokOf]

theorem skip_bar (r : List Sst) : skipDelim "|" (delim 124 :: r) = some r := by
  simp [skipDelim, isDelim_self (d := "|") (c := 124) (by decide)]

theorem second_ident (x : Text) (r : List Sst) : secondName (ident x :: r) = .ok (some (str x), r) := by
  simp [secondName, ident, tokOf]

theorem second_star (r : List Sst) : secondName (delim 42 :: r) = .ok (none, r) := by
  have : isDelim "*" (delim 42) = true := isDelim_self (by decide)
  simp only [secondName, this, if_true]
  simp [delim, tokOf]

theorem type_read {ns : Namespaces} {t : List Sst} {q : QSel} (h : TypeText true ns t q) {rest : List Sst} (hb : NoBar rest) :
    qualified ns (some ns.default) (t ++ rest) = .ok (q, rest) := by
  unfold NoBar at hb
  cases h with
  | name hn => simp [qualified, prefix_ident, hb, name_strict hn, qsel, Prefix.name]
  | all => simp [qualified, prefix_star, hb, qsel, Prefix.name]
  | inName hp hb' hn =>
    rw [name_strict hp] at hb'
    simp [qualified, prefix_ident, skip_bar, second_ident, Out.bind, lookup_bound hb', name_strict hn]
  | inAll hp hb' =>
    rw [name_strict hp] at hb'
    simp [qualified, prefix_ident, skip_bar, second_star, Out.bind, lookup_bound hb']
  | anyName hn => simp [qualified, prefix_star, skip_bar, second_ident, Out.bind, name_strict hn]
  | anyAll => simp [qualified, prefix_star, skip_bar, second_star, Out.bind]
  | noName h => cases h
  | noAll h => cases h

theorem attrName_read {ns : Namespaces} {t : List Sst} {q : QSel} (h : AttrName true ns t q) {rest : List Sst} (hb : NoBar rest) :
    qualified ns none (t ++ rest) = .ok (q, rest) := by
  unfold NoBar at hb
  cases h with
  | name hn => simp [qualified, prefix_ident, hb, name_strict hn, qsel, Prefix.name]
  | inName hp hb' hn =>
    rw [name_strict hp] at hb'
    simp [qualified, prefix_ident, skip_bar, second_ident, Out.bind, lookup_bound hb', name_strict hn]
  | anyName hn => simp [qualified, prefix_star, skip_bar, second_ident, Out.bind, name_strict hn]
  | noName hn => simp [qualified, prefix_bar, skip_bar, second_ident, Out.bind, name_strict hn]

theorem attrName_head {ns : Namespaces} {t : List Sst} {q : QSel} (h : AttrName true ns t q) (rest : List Sst) :
    eatWs (t ++ rest) = t ++ rest ∧ (t ++ rest).isEmpty = false := by
  cases h <;> simp [eatWs, ident, delim, Sst.is]

theorem skip_eq (r : List Sst) : skipDelim "=" (delim 61 :: r) = some r := by
  simp [skipDelim, isDelim_self (d := "=") (c := 61) (by decide)]

theorem attrOp_two {c : Nat} (hc : lower c ≠ 61) (r : List Sst) :
    attrOp (delim c :: delim 61 :: r) = (if [c] = u "~" then .ok (.contains, r) else if [c] = u "|" then .ok (.hyphenated, r)
      else if [c] = u "^" then .ok (.startWith, r) else if [c] = u "$" then .ok (.endWith, r)
      else if [c] = u "*" then .ok (.contain, r) else .err) := by
  have h : isDelim "=" (delim c) = false := isDelim_ne (c := 61) (by decide) (by simpa [lower] using hc)
  simp only [attrOp, h, skip_eq]
  simp [delim, Sst.is, tokOf]
  rfl

theorem attrOp_read {o : List Sst} {m : AttrMatch} (h : AttrOp o m) (r : List Sst) : attrOp (o ++ r) = .ok (m, r) := by
  cases h with
  | exact => simp [attrOp, isDelim_self (d := "=") (c := 61) (by decide)]
  | _ =>
    simp only [List.cons_append, List.nil_append]
    rw [attrOp_two (by decide)]
    rfl

theorem attrOp_head {o : List Sst} {m : AttrMatch} (h : AttrOp o m) (r : List Sst) :
    eatWs (o ++ r) = o ++ r ∧ (o ++ r).isEmpty = false ∧ (m ≠ .hyphenated → NoBar (o ++ r)) := by
  cases h
  all_goals refine ⟨by simp [eatWs, delim, Sst.is], by simp, ?_⟩
  all_goals first
    | exact fun _ => noBar_delim (by decide)
    | exact fun h => absurd rfl h

theorem attrVal_read {v : Sst} {x : Str} (h : AttrVal true v x) {g : List Sst} (hg : Gap g) (r : List Sst) :
    ∃ d, attrValue (g ++ v :: r) = .ok (d, r) ∧ x = str d := by
  unfold attrValue
  rw [eat_gap hg]
  cases h with
  | string => exact ⟨_, by simp [eatWs, Sst.is, tokOf], rfl⟩
  | name hn => exact ⟨_, by simp [ident, eatWs, Sst.is, tokOf], name_strict hn⟩

theorem attrFlag_read {f : List Sst} {i : Bool} (h : AttrFlag true f i) {g g' : List Sst} (hg : Gap g) (hg' : Gap g') :
    attrFlag (g ++ (f ++ g')) = .ok i := by
  have he : eatWs g' = [] := by
    have := eat_gap hg' []
    simpa [eatWs] using this
  unfold attrFlag
  rw [eat_gap hg]
  cases h with
  | none => simp [he]
  | sensitive hk =>
    have := keyword_strict hk
    subst this
    simp [ident, eatWs, Sst.is, tokOf, he]
  | insensitive hk =>
    have := keyword_strict hk
    subst this
    have : u "i" ≠ u "s" := by decide
    simp [ident, eatWs, Sst.is, tokOf, he, this]

theorem attr_read {ns : Namespaces} {c : List Sst} {a : AttrSel} (h : AttrText true ns c a) : attrSel ns c = .ok (.attr a) := by
  cases h with
  | present hg ht hg' =>
    have he : ∀ {g}, Gap g → eatWs g = [] := by
      intro g hg
      have := eat_gap hg []
      simpa [eatWs] using this
    unfold attrSel
    rw [eat_gap hg, (attrName_head ht _).1, (attrName_head ht _).2]
    have hb := noBar_gap hg' noBar_nil
    rw [List.append_nil] at hb
    rw [attrName_read ht hb]
    simp [Out.bind, he hg']
  | test hg ht hg₁ ho hg₂ hv hg₃ hf hg₄ hs =>
    rename_i g t q g₁ o m g₂ v x g₃ f i g₄
    unfold attrSel
    rw [eat_gap hg, (attrName_head ht _).1, (attrName_head ht _).2]
    have hb : NoBar (g₁ ++ (o ++ (g₂ ++ v :: (g₃ ++ (f ++ g₄))))) := by
      rcases Classical.em (m = .hyphenated) with h | h
      · rcases hg₁ with rfl | ⟨d, rfl⟩
        · exact absurd rfl (hs rfl h)
        · exact noBar_tok (by simp)
      · exact noBar_gap hg₁ ((attrOp_head ho _).2.2 h)
    rw [attrName_read ht hb]
    simp only [Out.bind]
    rw [eat_gap hg₁, (attrOp_head ho _).1, (attrOp_head ho _).2.1, attrOp_read ho]
    obtain ⟨d, hd, rfl⟩ := attrVal_read hv hg₂ (g₃ ++ (f ++ g₄))
    simp [Out.bind, hd, attrFlag_read hf hg₃ hg₄]

end Verif.SelParse
