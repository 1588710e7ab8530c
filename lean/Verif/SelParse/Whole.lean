import Verif.SelParse.Reads
import Verif.SelParse.Mono
/-!
# The texts of the grammar are read as meant
-/
namespace Verif.SelParse
open Verif.Css (Sst Tok TT Text u eatWs lower eqCi)
open Verif.Selector (Str Selector QSel NsPat AnB AttrSel AttrMatch Comb)
open Spec (Gap NotSpace Open CombText Grouped allOf anyOf chain delim comma colon ident Keyword Name TypeText AttrText Anb
  Simple Simples Compound More Complex Complexes ListText plainPseudo elements)

/-- The list `c` is read as meant. -/
def ListOk (ns : Namespaces) (c : List Sst) (l : List Selector) : Prop :=
  ∃ v, Reads (fun n => parse n ns c) (anyOf v) ∧ Rels v l

theorem ListOk.sel {ns : Namespaces} {c l} (h : ListOk ns c l) : ∃ v, Reads (fun n => parse n ns c) v ∧ Rel v (anyOf l) := by
  obtain ⟨v, hv, hr⟩ := h
  exact ⟨_, hv, Rel.anyOf hr⟩

/-- A simple selector behind one colon. -/
theorem colon_reads {ns : Namespaces} {x : Sst} {s : Selector} (hx : (tokOf x).type ≠ .colon) (hs : s.Complete)
    (h : Reads (fun n => pseudo n ns x) s) : AndReads ns [colon, x] s := by
  refine ⟨⟨⟨colon, [x], rfl, by simp [NotSpace, colon], fun _ => by decide, fun rest _ => ?_⟩, hs⟩, fun rest => rfl⟩
  refine Reads.succ ((h.bind (g := fun _ v => .ok (v, rest)) (Reads.pure _)).congr fun n => ?_)
  rw [List.singleton_append, colon, simple.eq_def]
  simp [hx]

theorem pseudo_tok {ns : Namespaces} (t : Tok) : Reads (fun n => pseudo n ns (.tok t)) (pseudoName t.data) :=
  Reads.succ ((Reads.pure _).congr fun n => by rw [pseudo.eq_def])

theorem pseudo_func {ns : Namespaces} {x : Text} {w : String} {c : List Sst} {s : Selector} (hx : x = u w)
    (hw : (Tok.mk .func (u w)).same ⟨.func, u "not("⟩ = false)
    (h : Reads (fun n => pseudoFunc n ns ((u w).take ((u w).length - 1)) c) s) : Reads (fun n => pseudo n ns (.func ⟨.func, x⟩ c)) s := by
  subst hx
  refine Reads.succ (h.congr fun n => ?_)
  rw [pseudo.eq_def]
  simp [hw]

theorem nth_plain {ns : Namespaces} {x : Text} {b : Bool} {g t g' : List Sst} {a : AnB} (hg : Gap g) (h : Anb true b t a) (hg' : Gap g') :
    Reads (fun n => pseudoFunc n ns x (g ++ (t ++ g'))) (pseudoClass x (some (a, none))) := by
  have he : eatWs g' = [] := by
    have := eat_gap hg' []
    simpa [eatWs] using this
  obtain ⟨r, hr, her⟩ := anb_read h hg g' (.inr he)
  refine Reads.succ ((Reads.pure _).congr fun n => ?_)
  rw [pseudoFunc, hr, Out.bind]
  simp [her, he]

theorem of_ident {y : Text} (h : Keyword false y "of") : (ident y).isIdent (u "of") = true := by
  have hl : lower = Spec.low := by funext c; rfl
  simp only [ident, Sst.isIdent, Tok.same, eqCi, beq_self_eq_true, Bool.true_and, beq_iff_eq, hl, h.1]
  decide

theorem nth_of {ns : Namespaces} {x : Text} {b : Bool} {g t g' c : List Sst} {a : AnB} {y : Text} {s : Selector} (hg : Gap g) (h : Anb true b t a)
    (hb : b = true) (hg' : Gap g') (hy : Keyword false y "of") (hx : ¬ (x = u "nth-of-type" ∨ x = u "nth-last-of-type"))
    (hc : Reads (fun n => parse n ns c) s) :
    Reads (fun n => pseudoFunc n ns x (g ++ (t ++ (g' ++ ident y :: c)))) (pseudoClass x (some (a, some s))) := by
  have he : eatWs (g' ++ ident y :: c) = ident y :: c := by
    rw [eat_gap hg', ident, eat_tok (by simp)]
  obtain ⟨r, hr, her⟩ := anb_read h hg (g' ++ ident y :: c) (.inl hb)
  refine Reads.succ ((hc.bind (g := fun _ v => .ok (pseudoClass x (some (a, some v)))) (Reads.pure _)).congr fun n => ?_)
  rw [pseudoFunc, hr]
  simp only [Out.bind, her, he, if_neg hx, of_ident hy, if_true]

theorem not_same {x : Text} (h : Keyword false x "not(") : (Tok.mk .func x).same ⟨.func, u "not("⟩ = true := by
  have hl : lower = Spec.low := by funext c; rfl
  simp only [Tok.same, eqCi, beq_self_eq_true, Bool.true_and, beq_iff_eq, hl, h.1]
  decide

theorem pseudo_named {ns : Namespaces} {w : String} {s : Selector} (hs : pseudoName (u w) = s) (hc : s.Complete) :
    ∃ s', AndReads ns [colon, ident (u w)] s' ∧ Rel s' s := by
  refine ⟨s, colon_reads (by simp [ident, tokOf]) hc ?_, .refl hc⟩
  rw [← hs]
  exact pseudo_tok _

theorem size_in (x : Text) (g t g' : List Sst) (y : Sst) (c : List Sst) (a : Sst) :
    sizeOf c < sizeOf [a, .func ⟨.func, x⟩ (g ++ (t ++ (g' ++ y :: c)))] := by
  have h : c <:+ g ++ (t ++ (g' ++ y :: c)) := ⟨g ++ (t ++ (g' ++ [y])), by simp⟩
  have := size_suffix h
  simp only [List.cons.sizeOf_spec, Sst.func.sizeOf_spec]
  omega

/-- Simple selectors, when the lists inside are. -/
theorem simple_reads {ns : Namespaces} {t s} (h : Simple true ns t s)
    (ih : ∀ c s, sizeOf c < sizeOf t → ListText true ns c s → ∃ v, Reads (fun n => parse n ns c) v ∧ Rel v s) :
    ∃ s', AndReads ns t s' ∧ Rel s' s := by
  cases h with
  | id hn =>
    have hc : ∀ x : Str, (Selector.id x).Complete := fun _ => by simp [Selector.Complete]
    refine ⟨_, ⟨⟨⟨_, [], rfl, by simp [NotSpace], fun _ => by simp [startsSimple, Sst.is], fun rest _ => ?_⟩, hc _⟩, fun rest => rfl⟩, .refl (hc _)⟩
    refine Reads.succ ((Reads.pure _).congr fun n => ?_)
    rw [name_strict hn, simple.eq_def]
    simp
  | class_ hn =>
    have hc : ∀ x : Str, (Selector.class_ x).Complete := fun _ => by simp [Selector.Complete]
    refine ⟨_, ⟨⟨⟨_, _, rfl, by simp [NotSpace, delim], fun _ => by decide, fun rest _ => ?_⟩, hc _⟩, fun rest => ?_⟩, .refl (hc _)⟩
    · refine Reads.succ ((Reads.pure _).congr fun n => ?_)
      have : ([46] : Text) = u "." := by decide
      rw [name_strict hn, simple.eq_def]
      simp [delim, this, ident, tokOf]
    · rfl
  | attr ha =>
    have hc : ∀ x : AttrSel, (Selector.attr x).Complete := fun _ => by simp [Selector.Complete]
    refine ⟨_, ⟨⟨⟨_, [], rfl, by simp [NotSpace], fun h => absurd rfl (h _), fun rest _ => ?_⟩, hc _⟩, fun rest => rfl⟩, .refl (hc _)⟩
    refine Reads.succ ((Reads.pure _).congr fun n => ?_)
    rw [simple.eq_def]
    simp [attr_read ha, Out.bind]
  | pseudo hw hk =>
    have := keyword_strict hk
    subst this
    simp only [plainPseudo, List.mem_cons, Prod.mk.injEq, List.not_mem_nil, or_false] at hw
    rcases hw with ⟨rfl, rfl⟩ | ⟨rfl, rfl⟩ | ⟨rfl, rfl⟩ | ⟨rfl, rfl⟩ | ⟨rfl, rfl⟩ | ⟨rfl, rfl⟩ | ⟨rfl, rfl⟩ | ⟨rfl, rfl⟩ | ⟨rfl, rfl⟩
    all_goals exact pseudo_named rfl (by simp [Selector.Complete])
  | element hw hk =>
    have := keyword_strict hk
    subst this
    have hc : ∀ x : Str, (Selector.pseudoElement x).Complete := fun _ => by simp [Selector.Complete]
    have hdo : ∀ {w : String} {s : Selector}, pseudoName (u w) = s → s.Complete → AndReads ns [colon, colon, ident (u w)] s := by
      intro w s hs hc
      refine ⟨⟨⟨colon, [colon, ident (u w)], rfl, by simp [NotSpace, colon], fun _ => by decide, fun rest _ => ?_⟩, hc⟩, fun rest => rfl⟩
      refine Reads.succ (((pseudo_tok (ns := ns) ⟨.ident, u w⟩).bind (g := fun _ v => .ok (v, rest)) ((Reads.pure (s, rest)).congr fun _ => ?_)).congr fun n => ?_)
      · rw [hs]
      · rw [simple.eq_def]
        simp [colon, tokOf, ident]
    simp only [elements, List.mem_cons, Prod.mk.injEq, List.not_mem_nil, or_false] at hw
    rcases hw with ⟨rfl, rfl⟩ | ⟨rfl, rfl⟩ | ⟨rfl, rfl⟩
    all_goals exact ⟨_, hdo rfl (hc _), .refl (hc _)⟩
  | legacy hw hk =>
    have := keyword_strict hk
    subst this
    simp only [elements, List.mem_cons, Prod.mk.injEq, List.not_mem_nil, or_false, and_true, reduceCtorEq, and_false] at hw
    rcases hw with rfl | rfl
    all_goals exact pseudo_named rfl (by simp [Selector.Complete])
  | @not x c s hx hl =>
    obtain ⟨v, hv, hr⟩ := ih c s (by simp; omega) hl
    refine ⟨.not v, colon_reads (by simp [tokOf]) hr.not.complete ?_, hr.not⟩
    refine Reads.succ ((hv.bind (g := fun _ v => .ok (.not v)) (Reads.pure _)).congr fun n => ?_)
    rw [pseudo.eq_def]
    simp [not_same hx]
  | @nthChild x g t a g' b hk hg ha hg' =>
    exact ⟨.nthChild false (some (a, none)), colon_reads (by simp [tokOf]) (by simp [Selector.Complete])
      (pseudo_func (keyword_strict hk) (by decide +kernel) (nth_plain hg ha hg')), .refl (by simp [Selector.Complete])⟩
  | @nthLastChild x g t a g' b hk hg ha hg' =>
    exact ⟨.nthChild true (some (a, none)), colon_reads (by simp [tokOf]) (by simp [Selector.Complete])
      (pseudo_func (keyword_strict hk) (by decide +kernel) (nth_plain hg ha hg')), .refl (by simp [Selector.Complete])⟩
  | @nthOfType x g t a g' b hk hg ha hg' =>
    exact ⟨.nthOfType false (some a), colon_reads (by simp [tokOf]) (by simp [Selector.Complete])
      (pseudo_func (keyword_strict hk) (by decide +kernel) (nth_plain hg ha hg')), .refl (by simp [Selector.Complete])⟩
  | @nthLastOfType x g t a g' b hk hg ha hg' =>
    exact ⟨.nthOfType true (some a), colon_reads (by simp [tokOf]) (by simp [Selector.Complete])
      (pseudo_func (keyword_strict hk) (by decide +kernel) (nth_plain hg ha hg')), .refl (by simp [Selector.Complete])⟩
  | @nthChildOf x g t a g' y c s b hk hg ha hb hg' hy hl =>
    obtain ⟨v, hv, hr⟩ := ih c s (size_in _ _ _ _ _ _ _) hl
    exact ⟨_, colon_reads (by simp [tokOf]) hr.nth.complete
      (pseudo_func (keyword_strict hk) (by decide +kernel) (nth_of hg ha (hb rfl) hg' hy (by decide +kernel) hv)), hr.nth⟩
  | @nthLastChildOf x g t a g' y c s b hk hg ha hb hg' hy hl =>
    obtain ⟨v, hv, hr⟩ := ih c s (size_in _ _ _ _ _ _ _) hl
    exact ⟨_, colon_reads (by simp [tokOf]) hr.nth.complete
      (pseudo_func (keyword_strict hk) (by decide +kernel) (nth_of hg ha (hb rfl) hg' hy (by decide +kernel) hv)), hr.nth⟩

/-- Every shorter list is read as meant. -/
def Below (ns : Namespaces) (z : Nat) : Prop :=
  ∀ c s, sizeOf c < z → ListText true ns c s → ∃ v, Reads (fun n => parse n ns c) v ∧ Rel v s

theorem Below.mono {ns : Namespaces} {z z' : Nat} (h : Below ns z) (hz : z' ≤ z) : Below ns z' := fun c s hc => h c s (by omega)

theorem size_left (a b : List Sst) : sizeOf a ≤ sizeOf (a ++ b) := by
  induction a with
  | nil =>
    have := size_pos b
    simpa using this
  | cons x a ih =>
    simp only [List.cons_append, List.cons.sizeOf_spec]
    omega

theorem size_right (a b : List Sst) : sizeOf b ≤ sizeOf (a ++ b) := size_suffix (List.suffix_append a b)

theorem row_reads {ns : Namespaces} : ∀ {l t}, Simples true ns t l → Below ns (sizeOf t) → ∃ l', Row ns t l' ∧ Rels l' l
  | [], _, h, _ => by
    cases h
    exact ⟨[], .nil, .nil⟩
  | _ :: l, _, h, hb => by
    cases h with
    | @cons t s t' l hs hl =>
      obtain ⟨s', h1, h2⟩ := simple_reads hs (hb.mono (size_left _ _))
      obtain ⟨l', h3, h4⟩ := row_reads hl (hb.mono (size_right _ _))
      exact ⟨s' :: l', .cons h1 h3, .cons h2 h4⟩

theorem typeText_reads {ns : Namespaces} {t q} (h : TypeText true ns t q) : SimpleReads ns t (.type q) := by
  have hc : (Selector.type q).Complete := by simp [Selector.Complete]
  refine ⟨?_, hc⟩
  have key : ∀ (x : Sst) (tl : List Sst), t = x :: tl → ((∃ d, x = ident d) ∨ x = delim 42) →
      ∃ h tl, t = h :: tl ∧ NotSpace h ∧ ((∀ c, h ≠ .block c) → startsSimple h = true) ∧
        ∀ rest, NoBar rest → Reads (fun n => simple n ns h (tl ++ rest)) (.type q, rest) := by
    intro x tl ht hx
    refine ⟨x, tl, ht, ?_, fun _ => ?_, fun rest hb => Reads.succ ((Reads.pure _).congr fun n => ?_)⟩
    · rcases hx with ⟨d, rfl⟩ | rfl <;> simp [NotSpace, ident, delim]
    · rcases hx with ⟨d, rfl⟩ | rfl
      · simp [startsSimple, ident, Sst.is]
      · decide
    · have hr := type_read h hb
      rw [ht, List.cons_append] at hr
      rcases hx with ⟨d, rfl⟩ | rfl
      · rw [ident] at hr ⊢
        rw [simple.eq_def]
        simp [hr, Out.bind]
      · rw [delim] at hr ⊢
        have h1 : ([42] : Text) ≠ u "." := by decide
        have h2 : ([42] : Text) = u "*" := by decide
        rw [simple.eq_def]
        simp only [if_neg h1, if_pos h2, hr, Out.bind]
  cases h with
  | name => exact key _ _ rfl (.inl ⟨_, rfl⟩)
  | all => exact key _ _ rfl (.inr rfl)
  | inName => exact key _ _ rfl (.inl ⟨_, rfl⟩)
  | inAll => exact key _ _ rfl (.inl ⟨_, rfl⟩)
  | anyName => exact key _ _ rfl (.inr rfl)
  | anyAll => exact key _ _ rfl (.inr rfl)
  | noName h => cases h
  | noAll h => cases h

theorem comp_reads {ns : Namespaces} {t k} (h : Compound true ns t k) (hb : Below ns (sizeOf t)) : ∃ k', Comp ns t k' ∧ Rels k' k := by
  cases h with
  | @bare t s t' l hs hl =>
    obtain ⟨s', h1, h2⟩ := simple_reads hs (hb.mono (size_left _ _))
    obtain ⟨l', h3, h4⟩ := row_reads hl (hb.mono (size_right _ _))
    exact ⟨s' :: l', ⟨_, _, _, _, rfl, rfl, h1.toSimpleReads, h3⟩, .cons h2 h4⟩
  | @typed t q t' l hq hl =>
    obtain ⟨l', h3, h4⟩ := row_reads hl (hb.mono (size_right _ _))
    have h1 := typeText_reads hq
    exact ⟨_ :: l', ⟨_, _, _, _, rfl, rfl, h1, h3⟩, .cons (.refl h1.complete) h4⟩

inductive RelItems : List (Comb × List Selector) → List (Comb × List Selector) → Prop
  | nil : RelItems [] []
  | cons {o k k' l l'} : Rels k k' → RelItems l l' → RelItems ((o, k) :: l) ((o, k') :: l')

theorem RelItems.grouped {l l'} (h : RelItems l l') (hg : Grouped l') : Grouped l := by
  induction h with
  | nil => exact hg
  | cons hk h ih =>
    cases h with
    | nil => simp [Grouped]
    | cons hk' h =>
      simp only [Grouped] at hg ⊢
      exact ⟨by rw [hk.length]; exact hg.1, ih hg.2⟩

theorem RelItems.foldl {l l'} (h : RelItems l l') : ∀ {a a'}, Rel a a' → Rel (l.foldl step a) (l'.foldl step a') := by
  induction h with
  | nil => exact fun h => h
  | cons hk _ ih => exact fun h => ih (Rel.infix h (Rel.allOf hk))

theorem items_reads {ns : Namespaces} : ∀ {l r}, More true ns r l → Below ns (sizeOf r) → ∃ l', Items ns r l' ∧ RelItems l' l
  | [], _, h, _ => by
    cases h
    exact ⟨[], .nil, .nil⟩
  | _ :: l, _, h, hb => by
    cases h with
    | @cons c o t k r l hk hc hr =>
      have hb' := hb.mono (size_right c (t ++ r))
      obtain ⟨k', h1, h2⟩ := comp_reads hk (hb'.mono (size_left _ _))
      obtain ⟨l', h3, h4⟩ := items_reads hr (hb'.mono (size_right _ _))
      exact ⟨(o, k') :: l', .cons h1 hc h3, .cons h2 h4⟩

theorem complex_reads {ns : Namespaces} {t s} (h : Complex true ns t s) (hb : Below ns (sizeOf t)) :
    ∃ t₀ k r l, t = t₀ ++ r ∧ Comp ns t₀ k ∧ Items ns r l ∧ Grouped l ∧ Rel (chain k l) s := by
  cases h with
  | mk hk hr hg =>
    obtain ⟨k', h1, h2⟩ := comp_reads hk (hb.mono (size_left _ _))
    obtain ⟨l', h3, h4⟩ := items_reads hr (hb.mono (size_right _ _))
    refine ⟨_, k', _, l', rfl, h1, h3, h4.grouped (hg rfl), ?_⟩
    rw [chain_step, chain_step]
    exact h4.foldl (Rel.allOf h2)

theorem complexes_reads {ns : Namespaces} {w : List Sst} (hw : Gap w) : ∀ {l t}, Complexes true ns t l → Below ns (sizeOf t) →
    ∃ t₀ k r l₀ T ls, t ++ w = t₀ ++ (r ++ T) ∧ Comp ns t₀ k ∧ Items ns r l₀ ∧ Grouped l₀ ∧ Tail ns T ls ∧ Rels (chain k l₀ :: ls) l
  | [], _, h, _ => by cases h
  | [_], _, h, hb => by
    cases h with
    | one h =>
      obtain ⟨t₀, k, r, l, rfl, h1, h2, h3, h4⟩ := complex_reads h hb
      refine ⟨t₀, k, r, l, w, [], by simp, h1, h2, h3, ?_, .cons h4 .nil⟩
      rcases hw with rfl | ⟨d, rfl⟩
      · exact .nil
      · exact .ws
    | more _ _ _ _ h => cases h
  | _ :: l :: ls, _, h, hb => by
    cases h with
    | @more t s g g' r _ h hg hg' hs hr =>
      obtain ⟨t₀, k, r₀, l₀, rfl, h1, h2, h3, h4⟩ := complex_reads h (hb.mono (size_left _ _))
      have hsz : sizeOf r ≤ sizeOf ((t₀ ++ r₀) ++ (g ++ comma :: (g' ++ r))) :=
        size_suffix ⟨(t₀ ++ r₀) ++ (g ++ comma :: g'), by simp⟩
      obtain ⟨t₁, k₁, r₁, l₁, T, ls', e, g1, g2, g3, g4, g5⟩ := complexes_reads hw hr (hb.mono hsz)
      refine ⟨t₀, k, r₀, l₀, g ++ comma :: (g' ++ (t₁ ++ (r₁ ++ T))), _, ?_, h1, h2, h3, .more hg hg' ?_ g1 g2 g3 g4, .cons h4 g5⟩
      · rw [← e]; simp
      · rw [← e]
        rcases hs rfl with h | h | h
        · exact .inl h
        · exact .inr (.inl h)
        · exact .inr (.inr (open_append h))

theorem list_ok {ns : Namespaces} {c s} (h : ListText true ns c s) (hb : Below ns (sizeOf c)) : ∃ l, s = anyOf l ∧ ListOk ns c l := by
  cases h with
  | @mk g t g' l hg ht hg' =>
    have hsz : sizeOf t ≤ sizeOf (g ++ (t ++ g')) := Nat.le_trans (size_left t g') (size_right g _)
    obtain ⟨t₀, k, r, l₀, T, ls, e, h1, h2, h3, h4, h5⟩ := complexes_reads hg' ht (hb.mono hsz)
    refine ⟨l, rfl, ?_⟩
    obtain ⟨v, hv, hr⟩ := list_reads hg h1 h2 h3 h4
    rw [← e] at hv
    refine ⟨v, hv, ?_⟩
    clear hv e h4
    have trans : ∀ {a b c}, Rels a b → Rels b c → Rels a c := by
      intro a b c hab
      induction hab generalizing c with
      | nil => exact id
      | cons h _ ih =>
        intro hbc
        cases hbc with
        | cons h' hbc => exact .cons (h.trans h') (ih hbc)
    exact trans hr h5

theorem below (ns : Namespaces) : ∀ z, Below ns z
  | 0 => fun _ _ h => absurd h (by omega)
  | z + 1 => fun c s hc h => by
    obtain ⟨l, rfl, hl⟩ := list_ok h ((below ns z).mono (by omega))
    exact hl.sel

/-- Every list of the grammar is read as meant. -/
theorem read_list {ns : Namespaces} {c s} (h : ListText true ns c s) : ∃ l v, s = anyOf l ∧ read ns c = .ok (anyOf v) ∧ Rels v l := by
  obtain ⟨l, rfl, v, ⟨N, hN⟩, hr⟩ := list_ok h (below ns _)
  exact ⟨l, v, rfl, read_of_parse (hN N (Nat.le_refl _)) (by simp), hr⟩

end Verif.SelParse
