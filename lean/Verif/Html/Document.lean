import Verif.Html.Raw
/-
Whole documents.
-/
namespace Verif.Html
open Spec

/-- The tokenizer between two parts of a document. -/
structure Ready (s : Lex) (o : List Token) : Prop where
  state : s.state = .data
  builder : s.builder = []
  peek : s.peek = []
  fault : s.fault = none
  out : s.out = o

theorem tag_src (t : TagSrc) (w : Str) :
    t.src ++ w = t.name ++ (attrSrcs t.attrs ++ (t.tail ++ (closing t.self ++ w))) := by
  simp [TagSrc.src, attrSrcs]

/-- The end of a tag in the middle of a document. -/
theorem ready_emit {E : Env} {s : Lex} {o : List Token} (hp : s.peek = []) (hf : s.fault = none)
    (ho : s.out = o) {t : Token} {b : Bool}
    (hk : t.kind = .startTag → E.sink (o ++ [t]) = none) :
    Ready (emit E (tagSt s .data t b [])) (o ++ [t]) := by
  refine ⟨?_, rfl, hp, hf, by rw [← ho]; rfl⟩
  show stateAfter E t (s.out ++ [t]) .data = .data
  unfold stateAfter
  by_cases h : t.kind = .startTag
  · rw [if_pos h, ho, hk h]
  · rw [if_neg h]

theorem text_item {E : Env} (hE : E.ents = entities) {s : Lex} {o : List Token} (h : Ready s o)
    {p : Piece} (hp : p.Ok .text) (w : Str) :
    ∃ s', fin E s (p.src ++ w) = fin E s' w ∧ Ready s' (o ++ p.means.map char) := by
  obtain ⟨t, e, ret, tmp, cur, matched, ht⟩ := piece_fin hE (p := .text) (s := s)
    (by rw [h.state]; exact .text) hp w
  rw [put_text (Or.inl h.state), emitChars_full] at ht
  subst ht
  exact ⟨_, e, h.state, h.builder, h.peek, h.fault, by rw [← h.out]⟩

theorem opens_fin {E : Env} (hE : E.ents = entities) {s : Lex} {o : List Token} (h : Ready s o)
    {t : TagSrc} (ht : t.Ok) (w : Str) :
    ∃ s' b, fin E s ('<' :: t.src ++ w) = fin E (emit E (tagSt s' .data (t.means .startTag) b [])) w ∧
      Keep s s' := by
  obtain ⟨s', b, e, hk⟩ := tag_fin hE (s := s) (k := .startTag) ht.name ht.attrs w
  refine ⟨s', b, ?_, hk⟩
  show fin E s ('<' :: (t.src ++ w)) = _
  rw [tag_src, start_open E h.state h.builder ht.name, e]
  rfl

theorem closes_fin {E : Env} (hE : E.ents = entities) {s : Lex} {o : List Token} (h : Ready s o)
    {t : TagSrc} (ht : t.Ok) (w : Str) :
    ∃ s' b, fin E s ('<' :: '/' :: t.src ++ w) = fin E (emit E (tagSt s' .data (t.means .endTag) b [])) w ∧
      Keep s s' := by
  obtain ⟨s', b, e, hk⟩ := tag_fin hE (s := s) (k := .endTag) ht.name ht.attrs w
  refine ⟨s', b, ?_, hk⟩
  show fin E s ('<' :: '/' :: (t.src ++ w)) = _
  rw [tag_src, end_open E h.state h.builder ht.name, e]
  rfl

/-- An element that holds text only. -/
theorem raw_item {E : Env} (hE : E.ents = entities) {s : Lex} {o : List Token} (h : Ready s o)
    {k : Content} {t e : TagSrc} {bs : List Bit} (hok : (Item.raw k t bs e).Ok)
    (hs : E.sink (o ++ [t.means .startTag]) = some k) (w : Str) :
    ∃ s', fin E s ((Item.raw k t bs e).src ++ w) = fin E s' w ∧
      Ready s' (o ++ (Item.raw k t bs e).means) := by
  obtain ⟨h1, h2, h3, h4, h5⟩ := hok
  have e0 : (Item.raw k t bs e).src ++ w =
      '<' :: t.src ++ (bitSrcs bs ++ '<' :: '/' :: (e.src ++ w)) := by simp [Item.src]
  obtain ⟨s1, b1, e1, k1⟩ := opens_fin hE h h1 (bitSrcs bs ++ '<' :: '/' :: (e.src ++ w))
  have e2 : emit E (tagSt s1 .data (t.means .startTag) b1 []) =
      ph { emit E (tagSt s1 .data (t.means .startTag) b1 []) with state := .data } (textState k) .text
        none s1.temp (o ++ [t.means .startTag]) := by
    have hst : (emit E (tagSt s1 .data (t.means .startTag) b1 [])).state = textState k := by
      show stateAfter E (t.means .startTag) (s1.out ++ [t.means .startTag]) .data = _
      unfold stateAfter
      rw [if_pos (by rfl), k1.out, h.out, hs]
      cases k <;> first | rfl | exact absurd rfl h2.kind
    have hout : (emit E (tagSt s1 .data (t.means .startTag) b1 [])).out = o ++ [t.means .startTag] := by
      show s1.out ++ _ = _
      rw [k1.out, h.out]
    rw [← hst, ← hout]
    rfl
  have hlast : ({ emit E (tagSt s1 .data (t.means .startTag) b1 []) with state := State.data } : Lex).lastStartTag =
      some (t.means .startTag) := rfl
  obtain ⟨s2, st2, p2, tok2, tmp2, o2, f1, f2, f3, f4, f5⟩ := raw_text hE (k := k) (name := t.name)
    (t := t.means .startTag) rfl h2.stays h2.escape ('<' :: '/' :: (e.src ++ w)) bs
    (p := .text) (x := []) (tok := none) (tmp := s1.temp) (o := o ++ [t.means .startTag])
    hlast h2.bits (text_state h2.kind) trivial List.nil_suffix rfl
  have l2 : s2.lastStartTag = some (t.means .startTag) := f5.last.trans hlast
  obtain ⟨st3, tok3, tmp3, g1, g2⟩ := lt_fin E (tok := tok2) (tmp := tmp2) (o := o2) f2 f3 l2
    (name := t.name) rfl ('/' :: (e.src ++ w))
  obtain ⟨st4, g3, g4⟩ := open_fin E (s := s2) (tok := tok3) (tmp := tmp3)
    (o := o2 ++ p2.held.map char) g1 (e.src ++ w)
  have he : Letters e.name := by
    have hl : e.name.length = t.name.length := by
      have := congrArg List.length h5
      simpa [lower] using this
    refine ⟨?_, ?_⟩
    · intro hn
      rw [hn] at hl
      exact h4.1 (List.eq_nil_of_length_eq_zero hl.symm)
    · intro c hc
      have hm : c.toLower ∈ lower t.name := by rw [← h5]; exact List.mem_map_of_mem hc
      obtain ⟨x, hx, hxc⟩ := List.mem_map.mp hm
      have hlow : Lower c.toLower := by
        rw [← hxc, ← lower_char]
        rcases h4.2 x hx with hu | hl
        · exact lower_of_upper hu
        · unfold toLower
          rw [if_neg]
          · exact hl
          · intro hu
            have := upper_iff.mp hu
            obtain ⟨a1, a2⟩ := this
            obtain ⟨b1, b2⟩ := hl
            have e1 : 'Z'.toNat = 90 := rfl
            have e2 : 'a'.toNat = 97 := rfl
            omega
      rcases name_char (c := c) with ⟨g, _⟩ | ⟨_, g⟩
      · exact Or.inl (upper_iff.mp g)
      · rw [g]; exact Or.inr hlow
  have hname : (t.means .startTag).name = some (lower e.name) := by rw [h5]; rfl
  obtain ⟨st5, g5, g6⟩ := letters_fin E (s := s2) (tok := tok3) (tmp := tmp3)
    (o := o2 ++ p2.held.map char) g3 l2 hname he (attrSrcs e.attrs ++ (e.tail ++ (closing e.self ++ w)))
  have hrest : Rest (attrSrcs e.attrs ++ (e.tail ++ (closing e.self ++ w))) := by
    cases ha : e.attrs with
    | nil => exact tail_rest h3.attrs.2.1 e.self w
    | cons a2 as =>
      have := attrs_rest (h3.attrs.1 a2 (by rw [ha]; simp)) (attrSrcs as ++ (e.tail ++ (closing e.self ++ w)))
      simpa [attrSrcs] using this
  obtain ⟨c, r, hc, hend⟩ := hrest.first
  have g7 := rawName_end E g5 (tok := tok3) (tmp := tmp3) (o := o2 ++ p2.held.map char) l2 hname hend r
  have hg : GoodTag { kind := .endTag, name := some (lower e.name) } :=
    ⟨⟨_, rfl, lower_tagName h3.name⟩, (fun a h => by cases h), List.nodup_nil⟩
  obtain ⟨s6, b6, g8, k6⟩ := attrs_fin hE (tail := e.tail) (self := e.self) w e.attrs
    (s := { s2 with temp := e.name, out := o2 ++ p2.held.map char }) (b := s2.attr) hg h3.attrs
  refine ⟨emit E (tagSt s6 .data (e.means .endTag) b6 []), ?_, ?_⟩
  · rw [e0, e1, e2, f1, g2, g4, tag_src, g6, hc, g7, ← hc, g8, close_fin E h3.attrs.2.1 rfl]
    simp only [TagSrc.means, List.foldl_map]
  · have hr := ready_emit (E := E) (t := e.means .endTag) (b := b6) (s := s6)
      (o := o2 ++ p2.held.map char)
      (by rw [k6.peek]; show s2.peek = []; rw [f5.peek]; show s1.peek = []; rw [k1.peek, h.peek])
      (by rw [k6.fault]; show s2.fault = none; rw [f5.fault]; show s1.fault = none; rw [k1.fault, h.fault])
      (by rw [k6.out]) (fun hk => by cases hk)
    have : o2 ++ p2.held.map char ++ [e.means .endTag] = o ++ (Item.raw k t bs e).means := by
      rw [← f4]
      simp [Item.means, Phase.held]
    rw [← this]
    exact hr

/-- Every part of a document. -/
theorem items_fin {E : Env} (hE : E.ents = entities) : ∀ (is : List Item) {s : Lex} {o : List Token},
    Ready s o → (∀ i ∈ is, i.Ok) → Agrees E.sink o is →
    ∃ s', fin E s (itemSrcs is) = fin E s' [] ∧ Ready s' (o ++ itemMeanings is)
  | [], s, o, h, _, _ => ⟨s, rfl, by simpa [itemMeanings] using h⟩
  | i :: is, s, o, h, hok, hag => by
    have hi := hok i (by simp)
    have key : Agrees E.sink (o ++ i.means) is ∧
        ∃ s1, fin E s (i.src ++ itemSrcs is) = fin E s1 (itemSrcs is) ∧ Ready s1 (o ++ i.means) := by
      cases i with
      | text p => exact ⟨hag, text_item hE h hi _⟩
      | opens t =>
        obtain ⟨a1, a2⟩ := hag
        obtain ⟨s1, b, e, k⟩ := opens_fin hE h hi (itemSrcs is)
        exact ⟨a2, _, e, ready_emit (by rw [k.peek, h.peek]) (by rw [k.fault, h.fault])
          (by rw [k.out, h.out]) (fun _ => a1)⟩
      | closes t =>
        obtain ⟨s1, b, e, k⟩ := closes_fin hE h hi (itemSrcs is)
        exact ⟨hag, _, e, ready_emit (by rw [k.peek, h.peek]) (by rw [k.fault, h.fault])
          (by rw [k.out, h.out]) (fun hk => by cases hk)⟩
      | comment d =>
        refine ⟨hag, emit E { s with token := some (commentTok d) }, ?_, ?_⟩
        · rw [show (Item.comment d).src ++ itemSrcs is =
            '<' :: '!' :: '-' :: '-' :: (d ++ '-' :: '-' :: '>' :: itemSrcs is) by simp [Item.src]]
          exact comment_fin E h.state h.builder h.peek hi _
        · refine ⟨h.state, h.builder, h.peek, h.fault, ?_⟩
          show s.out ++ _ = _
          rw [h.out]; rfl
      | doctype d =>
        refine ⟨hag, emit E (dt s .data (some d.means) [] []), doctype_fin E h.state h.builder h.peek hi _, ?_⟩
        refine ⟨rfl, rfl, rfl, h.fault, ?_⟩
        show s.out ++ _ = _
        rw [h.out]; rfl
      | raw k t bs e => exact ⟨hag.2, raw_item hE h hi hag.1 _⟩
    obtain ⟨ha, s1, e1, r1⟩ := key
    obtain ⟨s2, e2, r2⟩ := items_fin hE is r1 (fun x hx => hok x (by simp [hx])) ha
    refine ⟨s2, ?_, ?_⟩
    · rw [show itemSrcs (i :: is) = i.src ++ itemSrcs is by simp [itemSrcs], e1, e2]
    · rw [show itemMeanings (i :: is) = i.means ++ itemMeanings is by simp [itemMeanings],
        ← List.append_assoc]
      exact r2

theorem ready_end {E : Env} {s : Lex} {o : List Token} (h : Ready s o) :
    (fin E s []).out = o ++ [eof] ∧ (fin E s []).fault = none := by
  have e : fin E s [] = emitEof E s := by
    apply consume_stay (s := s)
    unfold step
    rw [h.state]
    rfl
  rw [e, emitEof_eq, h.out]
  exact ⟨rfl, h.fault⟩

/-! ### Newlines -/

theorem newlines_unix {doc text : Str} (h : Unix doc text) : newlines doc = text := by
  induction h with
  | nil => rfl
  | crlf _ ih => rw [newlines, ih]
  | @cr r r' hn _ ih =>
    rw [newlines, ih, if_pos rfl]
    intro q _ hq
    exact hn q hq
  | @other r r' c hc _ ih =>
    rw [newlines, ih, if_neg hc]
    intro q e _
    exact hc e

theorem document {E : Env} (hE : E.ents = entities) {is : List Item} (hok : ∀ i ∈ is, i.Ok)
    (hag : Agrees E.sink [] is) {doc : Str} (hd : Unix doc (itemSrcs is)) :
    tokens E doc = itemMeanings is ++ [eof] ∧ (run E doc).fault = none := by
  obtain ⟨s, e, hr⟩ := items_fin hE is (s := {}) (o := []) ⟨rfl, rfl, rfl, rfl, rfl⟩ hok hag
  have hrun : run E doc = fin E s [] := by
    rw [← e]
    show consume E (feed E {} (newlines doc)) etx true = _
    rw [newlines_unix hd]
    rfl
  obtain ⟨h1, h2⟩ := ready_end (E := E) hr
  refine ⟨?_, by rw [hrun]; exact h2⟩
  show (run E doc).out = _
  rw [hrun, h1]
  simp

end Verif.Html
