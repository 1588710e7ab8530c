import Verif.Short.Lemmas

/-!
# Shorthands: list-style (C168)
-/

namespace Verif.Short
open Verif.Values

/-- What a part does to the value, as the code has it; a position is taken for a name. -/
def ListStyle.set (v : ListStyle) : LPart → ListStyle
  | .none => { v with image := .none, type := .none }
  | .image s => { v with image := .url s }
  | .name s => { v with type := .name s }
  | .text s => { v with type := .text s }
  | .position _ => v

theorem skipIdent_not {k : String} {s : List Char} (h : ¬ Word k (.ident s)) (r : List Tok) :
    skipIdent k.toList (.ident s :: r) = none := by
  simp only [skipIdent]
  rw [if_neg]
  intro e
  exact h (.mk (eqCi_iff.mp e))

theorem parseUrl_tok {s : List Char} {t : Tok} (h : UrlTok s t) (r : List Tok) :
    parseUrl (t :: r) = (some s, r) := by
  cases h with
  | plain => rfl
  | quoted hn hc => simp only [parseUrl, eqCi_iff.mpr hn, if_true, hc]

theorem UrlTok.not_ident {s : List Char} {t : Tok} (h : UrlTok s t) (k : List Char) (r : List Tok) :
    skipIdent k (t :: r) = none := by cases h <;> rfl

theorem UrlTok.ne_ws {s : List Char} {t : Tok} (h : UrlTok s t) : t ≠ .ws := by cases h <;> simp

theorem LWrites.ne_ws {p : LPart} {t : Tok} (h : LWrites p t) : t ≠ .ws := by
  cases h with
  | none h => exact h.ne_ws
  | image h => exact h.ne_ws
  | name => simp
  | text => simp
  | inside h => exact h.ne_ws
  | outside h => exact h.ne_ws

theorem listLoop_part {p : LPart} {t : Tok} (h : LWrites p t) (hp : p.kind ≠ 3) (n : Nat)
    (v : ListStyle) (r : List Tok) :
    listLoop (n + 1) v (t :: r) = listLoop n (v.set p) r := by
  have nn : eqCi "none".toList "none".toList = true := by decide +kernel
  cases h with
  | none h => simp only [listLoop, skipIdent_word h, nn, if_true, ListStyle.set]
  | image h =>
    simp only [listLoop, h.not_ident, parseListImage, parseUrl_tok h, ListStyle.set]
  | name h1 h2 h3 =>
    simp only [listLoop, skipIdent_not h1, parseListImage, parseUrl, parseListType, ListStyle.set]
  | text => simp only [listLoop, skipIdent, parseListImage, parseUrl, parseListType, ListStyle.set]
  | inside => exact absurd rfl hp
  | outside => exact absurd rfl hp

theorem listLoop_parts {ps : List LPart} {ts : List Tok} (h : Texts LWrites ps ts)
    (hp : ∀ p ∈ ps, p.kind ≠ 3) (n : Nat) (hn : ts.length < n) (v : ListStyle) :
    listLoop n v ts = (some (ps.foldl ListStyle.set v), []) := by
  induction h generalizing n v with
  | nil =>
    cases n with
    | zero => omega
    | succ n => rfl
  | cons h1 h2 ih =>
    cases n with
    | zero => omega
    | succ n =>
      rw [listLoop_part h1 (hp _ (List.mem_cons_self ..))]
      exact ih (fun p hm => hp p (List.mem_cons_of_mem _ hm)) n (by simp at hn; omega) _

theorem foldl_listSet (ps : List LPart) (v : ListStyle) (h : (ps.map LPart.kind).Nodup)
    (h0 : hasNone ps = false) :
    ps.foldl ListStyle.set v = ⟨(ps.findSome? LPart.image?).getD v.image,
      (ps.findSome? LPart.type?).getD v.type, v.position⟩ := by
  induction ps generalizing v with
  | nil => rfl
  | cons p ps ih =>
    simp only [List.map_cons, List.nodup_cons] at h
    have h0' : hasNone ps = false := by
      simp only [hasNone, List.any_cons, Bool.or_eq_false_iff] at h0; exact h0.2
    have none_of : ∀ {β : Type} (f : LPart → Option β) (k : Nat), (∀ q, f q ≠ none → q.kind = k) →
        p.kind = k → ps.findSome? f = none := by
      intro β f k hf hk
      rw [List.findSome?_eq_none_iff]
      intro q hq
      by_cases e : f q = none
      · exact e
      · exact absurd (List.mem_map.mpr ⟨q, hq, (hf q e).trans hk.symm⟩) h.1
    have fi : ∀ q, LPart.image? q ≠ none → q.kind = 1 := by intro q; cases q <;> simp [LPart.image?, LPart.kind]
    have ft : ∀ q, LPart.type? q ≠ none → q.kind = 2 := by intro q; cases q <;> simp [LPart.type?, LPart.kind]
    rw [List.foldl_cons, ih _ h.2 h0']
    cases p with
    | none => simp [hasNone] at h0
    | image s => simp [List.findSome?_cons, LPart.image?, LPart.type?, ListStyle.set, none_of _ 1 fi rfl]
    | name s => simp [List.findSome?_cons, LPart.image?, LPart.type?, ListStyle.set, none_of _ 2 ft rfl]
    | text s => simp [List.findSome?_cons, LPart.image?, LPart.type?, ListStyle.set, none_of _ 2 ft rfl]
    | position p => simp [List.findSome?_cons, LPart.image?, LPart.type?, ListStyle.set]

/-- **C168 (in part).** An image and a name or text of a marker, at most one of each and in any
order, with a `none` in front of them or without, are what the list style has; what is not written
is no image and `disc`, or no marker if `none` is written.  Missing: a position, which is never
read, and a `none` behind the others. -/
theorem C168_list_partial {ps : List LPart} {ts : List Tok} (h : Texts LWrites ps ts)
    (hn : (ps.map LPart.kind).Nodup) (hp : ∀ p ∈ ps, p.kind ≠ 3)
    (h0 : ∀ q ps', ps = q :: ps' → hasNone ps' = false) :
    declared parseListStyle ts = some (listOf ps) := by
  have he : eatWs ts = ts := by
    cases h with
    | nil => rfl
    | @cons p t ps ts h1 h2 =>
      have := h1.ne_ws
      cases t with
      | ws => exact absurd rfl this
      | _ => rfl
  unfold declared parseListStyle
  rw [he, listLoop_parts h hp _ (Nat.lt_succ_self _)]
  simp only [Option.some.injEq]
  have hpos : ∀ qs : List LPart, (∀ p ∈ qs, p.kind ≠ 3) → qs.findSome? LPart.position? = none := by
    intro qs hq
    rw [List.findSome?_eq_none_iff]
    intro p hm
    have := hq p hm
    cases p <;> first | rfl | exact absurd rfl this
  cases ps with
  | nil => rfl
  | cons q ps =>
    have h1 := h0 q ps rfl
    simp only [List.map_cons, List.nodup_cons] at hn
    by_cases hq : q = .none
    · subst hq
      rw [List.foldl_cons, foldl_listSet _ _ hn.2 h1]
      have : hasNone (.none :: ps) = true := rfl
      have h3 := hpos (.none :: ps) hp
      unfold listOf
      rw [this, h3]
      simp [List.findSome?_cons, LPart.image?, LPart.type?, ListStyle.set]
    · have hq' : hasNone (q :: ps) = false := by
        simp only [hasNone, List.any_cons, Bool.or_eq_false_iff]
        refine ⟨?_, h1⟩
        cases q <;> simp_all
      have h3 := hpos (q :: ps) hp
      rw [foldl_listSet _ _ (by simp [hn]) hq']
      unfold listOf
      rw [hq', h3]
      rfl

/-- `list-style: none url("a.png")`: an image, and no marker in place of it. -/
example : Texts LWrites [.none, .image "a.png".toList]
      [.ident "none".toList, .func "url(".toList [.str "a.png".toList]] ∧
    listOf [.none, .image "a.png".toList] = ⟨.url "a.png".toList, .none, .outside⟩ :=
  ⟨.cons (.none (.mk (Cased.refl _))) (.cons (.image (.quoted (Cased.refl _) rfl)) .nil), rfl⟩

theorem listLoop_position (n : Nat) (v : ListStyle) (l : List Tok) {v' : ListStyle}
    {l' : List Tok} (h : listLoop n v l = (some v', l')) : v'.position = v.position := by
  induction n generalizing v l with
  | zero => cases h
  | succ n ih =>
    cases l with
    | nil => cases h; rfl
    | cons t r =>
      unfold listLoop at h
      split at h
      · exact (ih _ _ h :)
      · split at h
        · exact (ih _ _ h :)
        · next l1 h1 =>
          split at h
          · exact (ih _ _ h :)
          · next l2 h2 =>
            split at h
            · next p r' h3 =>
              exfalso
              obtain ⟨t, k, rfl, hm, hw⟩ := parseKw_one h3
              cases hw with
              | mk hw =>
                rename_i w
                have : parseListType l1 = (none, .ident w :: r') := h2
                unfold parseListType at this
                split at this
                · cases this
                · split at this
                  · cases this
                  · cases this
                  · next l hl1 hl2 =>
                    exact hl1 w r' (Prod.mk.inj this).2
            · cases h

/-- No text at all sets the position of the marker: `inside` and `outside` are taken for names of
counter styles. -/
theorem C168_position_fails {ts : List Tok} {v : ListStyle}
    (h : declared parseListStyle ts = some v) : v.position = .outside := by
  unfold declared at h
  split at h
  · next v' e => cases h; exact listLoop_position _ _ _ e
  · cases h

/-- `list-style: square inside` has a marker of the style `inside` outside the box. -/
theorem C168_inside_fails :
    Texts LWrites [.name "square".toList, .position .inside]
        [.ident "square".toList, .ident "inside".toList] ∧
      declared parseListStyle [.ident "square".toList, .ident "inside".toList] =
        some ⟨.none, .name "inside".toList, .outside⟩ ∧
      listOf [.name "square".toList, .position .inside] =
        ⟨.none, .name "square".toList, .inside⟩ := by
  have nw : ∀ k ∈ ["none", "inside", "outside"], eqCi "square".toList k.toList = false := by
    decide +kernel
  have nw' : ∀ k ∈ ["none", "inside", "outside"], ¬ Word k (.ident "square".toList) := by
    intro k hk h
    cases h with
    | mk h => exact absurd (eqCi_iff.mpr h) (by rw [nw k hk]; simp)
  exact ⟨.cons (.name (nw' _ (by simp)) (nw' _ (by simp)) (nw' _ (by simp)))
    (.cons (.inside (.mk (Cased.refl _))) .nil), by decide +kernel, rfl⟩

/-- `list-style: square none` has no marker; CSS has a square and no image. -/
theorem C168_none_fails :
    declared parseListStyle [.ident "square".toList, .ident "none".toList] =
        some ⟨.none, .none, .outside⟩ ∧
      listOf [.name "square".toList, .none] = ⟨.none, .name "square".toList, .outside⟩ :=
  ⟨by decide +kernel, rfl⟩

end Verif.Short
