import Verif.SelParse.AttrRead
import Verif.SelParse.Meaning
/-!
# Texts made of simple selectors are read as meant
-/
namespace Verif.SelParse
open Verif.Css (Sst Tok TT Text u eatWs lower eqCi)
open Verif.Selector (Str Selector QSel NsPat AnB AttrSel AttrMatch Comb)
open Spec (Gap NotSpace Open CombText Grouped allOf anyOf chain delim comma)

/-- With enough fuel it comes to `v`. -/
def Reads {α : Type} (f : Nat → Out α) (v : α) : Prop := ∃ N, ∀ n, N ≤ n → f n = .ok v

theorem Reads.pure {α : Type} (v : α) : Reads (fun _ => .ok v) v := ⟨0, fun _ _ => rfl⟩

theorem Reads.succ {α : Type} {f : Nat → Out α} {v : α} (h : Reads (fun n => f (n + 1)) v) : Reads f v := by
  obtain ⟨N, h⟩ := h
  refine ⟨N + 1, fun n hn => ?_⟩
  cases n with
  | zero => omega
  | succ n => exact h n (by omega)

theorem Reads.bind {α β : Type} {f : Nat → Out α} {a : α} {g : Nat → α → Out β} {b : β} (h : Reads f a) (h' : Reads (fun n => g n a) b) :
    Reads (fun n => (f n).bind (g n)) b := by
  obtain ⟨N, h⟩ := h
  obtain ⟨M, h'⟩ := h'
  exact ⟨max N M, fun n hn => by simp only [h n (by omega), Out.bind]; exact h' n (by omega)⟩

theorem Reads.congr {α : Type} {f g : Nat → Out α} {v : α} (h : Reads f v) (e : ∀ n, g n = f n) : Reads g v := by
  have : g = f := funext e
  rw [this]; exact h

/-! ## Texts -/

/-- The text `t` of a simple selector is read as `s`. -/
structure SimpleReads (ns : Namespaces) (t : List Sst) (s : Selector) : Prop where
  head : ∃ h tl, t = h :: tl ∧ NotSpace h ∧ ((∀ c, h ≠ .block c) → startsSimple h = true) ∧
    ∀ rest, NoBar rest → Reads (fun n => simple n ns h (tl ++ rest)) (s, rest)
  complete : s.Complete

/-- And it goes on a compound selector. -/
structure AndReads (ns : Namespaces) (t : List Sst) (s : Selector) : Prop extends SimpleReads ns t s where
  next : ∀ rest, peekOp (t ++ rest) = (.and, t ++ rest)

inductive Row (ns : Namespaces) : List Sst → List Selector → Prop
  | nil : Row ns [] []
  | cons {t s t' l} : AndReads ns t s → Row ns t' l → Row ns (t ++ t') (s :: l)

/-- A compound selector. -/
def Comp (ns : Namespaces) (t : List Sst) (k : List Selector) : Prop :=
  ∃ t₁ s t₂ l, t = t₁ ++ t₂ ∧ k = s :: l ∧ SimpleReads ns t₁ s ∧ Row ns t₂ l

/-- Combinators and compound selectors. -/
inductive Items (ns : Namespaces) : List Sst → List (Comb × List Selector) → Prop
  | nil : Items ns [] []
  | cons {c o t k r l} : Comp ns t k → CombText true t c o → Items ns r l → Items ns (c ++ (t ++ r)) ((o, k) :: l)

/-- What follows a complex selector: nothing, or more of them behind commas. -/
inductive Tail (ns : Namespaces) : List Sst → List Selector → Prop
  | nil : Tail ns [] []
  | ws {d} : Tail ns [.tok ⟨.ws, d⟩] []
  | more {g g' t k r l c ls} : Gap g → Gap g' → (g = [] ∨ g' ≠ [] ∨ Open (t ++ (r ++ c))) → Comp ns t k → Items ns r l → Grouped l →
      Tail ns c ls → Tail ns (g ++ comma :: (g' ++ (t ++ (r ++ c)))) (chain k l :: ls)

theorem Row.complete {ns : Namespaces} {t l} (h : Row ns t l) : ∀ s ∈ l, s.Complete := by
  induction h with
  | nil => simp
  | cons h _ ih =>
    intro s hs
    rcases List.mem_cons.mp hs with rfl | hs
    · exact h.complete
    · exact ih s hs

theorem Comp.complete {ns : Namespaces} {t k} (h : Comp ns t k) : (allOf k).Complete := by
  obtain ⟨t₁, s, t₂, l, rfl, rfl, hs, hl⟩ := h
  refine (Rel.allOf (Rels.refl (l := s :: l) ?_)).complete
  intro x hx
  rcases List.mem_cons.mp hx with rfl | hx
  · exact hs.complete
  · exact hl.complete x hx

/-- The operator of a combinator. -/
def opOf : Comb → Op
  | .descendant => .descendant
  | .child => .child
  | .adjacent => .adjacent
  | .subsequent => .subsequent
  | .column => .nop

theorem notSpace_is {s : Sst} (h : NotSpace s) : s.is .ws = false := by
  cases s <;> simp_all [NotSpace, Sst.is]

theorem notSpace_type {s : Sst} (h : NotSpace s) : (tokOf s).type ≠ .ws := by
  cases s <;> simp_all [NotSpace, tokOf]

theorem noBar_of_peek {c : List Sst} (h : (peekOp c).1 ≠ .nop) : NoBar c := by
  cases c with
  | nil => exact noBar_nil
  | cons s r =>
    unfold NoBar
    cases hb : isDelim "|" s with
    | false => exact noBar_cons hb
    | true =>
      have := bar_eq hb
      subst this
      refine absurd ?_ h
      unfold delim peekOp
      simp only
      have e1 : ([124] : Text) ≠ u ">" := by decide
      have e2 : ([124] : Text) ≠ u "~" := by decide
      have e3 : ([124] : Text) ≠ u "+" := by decide
      have e4 : ¬ (([124] : Text) = u "." ∨ ([124] : Text) = u "*") := by decide
      rw [if_neg e1, if_neg e2, if_neg e3, if_neg e4]
      split <;> rfl

/-! ## What comes next -/

theorem Comp.start {ns : Namespaces} {t k} (h : Comp ns t k) : ∃ x tl, t = x :: tl ∧ NotSpace x ∧ ((∀ c, x ≠ .block c) → startsSimple x = true) := by
  obtain ⟨t₁, s, t₂, l, rfl, rfl, hs, -⟩ := h
  obtain ⟨x, tl, rfl, h1, h2, -⟩ := hs.head
  exact ⟨x, tl ++ t₂, rfl, h1, h2⟩

/-- White space before something that starts no selector. -/
theorem peek_ws {d : Text} {s : Sst} {r : List Sst} (h : startsSimple s = false) :
    peekOp (.tok ⟨.ws, d⟩ :: s :: r) = ((peekOp (s :: r)).1, skipLone (peekOp (s :: r)).2) := by
  rw [peekOp.eq_def]
  simp [h]

theorem peek_comma (r : List Sst) : peekOp (comma :: r) = (.or, r) := by
  unfold comma peekOp
  simp

theorem skipLone_ok {s s' : Sst} {r : List Sst} (h : NotSpace s') : skipLone (s :: s' :: r) = s :: s' :: r := by
  simp [skipLone, notSpace_type h]

theorem skipLone_gap {g x : List Sst} {s : Sst} {r : List Sst} (hg : Gap g) (hx : x = s :: r) (hs : NotSpace s)
    (h : g ≠ [] ∨ Open x) : skipLone (g ++ x) = g ++ x := by
  subst hx
  rcases hg with rfl | ⟨d, rfl⟩
  · rcases h with h | ⟨a, b, z, he, hb⟩
    · exact absurd rfl h
    · rw [he]; exact skipLone_ok hb
  · exact skipLone_ok hs

theorem peek_delim {c : Nat} {o : Comb} (h : c = 62 ∧ o = .child ∨ c = 43 ∧ o = .adjacent ∨ c = 126 ∧ o = .subsequent)
    {r : List Sst} (hr : r ≠ []) : peekOp (delim c :: r) = (opOf o, r) := by
  have hr' : r.isEmpty = false := by cases r <;> simp_all
  unfold delim peekOp
  simp only [hr']
  rcases h with ⟨rfl, rfl⟩ | ⟨rfl, rfl⟩ | ⟨rfl, rfl⟩ <;> rfl

theorem delim_starts {c : Nat} (h : c = 62 ∨ c = 43 ∨ c = 126) : startsSimple (delim c) = false := by
  rcases h with rfl | rfl | rfl <;> decide

theorem open_append {t x : List Sst} (h : Open t) : Open (t ++ x) := by
  obtain ⟨a, b, z, rfl, hb⟩ := h
  exact ⟨a, b, z ++ x, rfl, hb⟩

/-- A combinator before a compound selector is seen. -/
theorem comb_peek {ns : Namespaces} {t k c o} (hc : CombText true t c o) (ht : Comp ns t k) (x : List Sst) :
    ∃ g, Gap g ∧ peekOp (c ++ (t ++ x)) = (opOf o, g ++ (t ++ x)) := by
  obtain ⟨s, tl, rfl, hs, hst⟩ := ht.start
  have hd : ∀ {d : Nat} {o : Comb} {g g' : List Sst}, (d = 62 ∧ o = .child ∨ d = 43 ∧ o = .adjacent ∨ d = 126 ∧ o = .subsequent) →
      Gap g → Gap g' → (true = true → g = [] ∨ g' ≠ [] ∨ Open (s :: tl)) →
      ∃ g₀, Gap g₀ ∧ peekOp ((g ++ delim d :: g') ++ ((s :: tl) ++ x)) = (opOf o, g₀ ++ ((s :: tl) ++ x)) := by
    intro d o g g' hd hg hg' hsk
    have hne : g' ++ (s :: tl ++ x) ≠ [] := by simp
    have hp := peek_delim hd hne
    refine ⟨g', hg', ?_⟩
    rcases hg with rfl | ⟨w, rfl⟩
    · simpa using hp
    · rw [List.append_assoc, List.singleton_append, List.cons_append, peek_ws (delim_starts (by omega)), hp]
      simp only
      rw [skipLone_gap (x := s :: tl ++ x) (s := s) (r := tl ++ x) hg' rfl hs]
      rcases hsk rfl with h | h | h
      · cases h
      · exact .inl h
      · exact .inr (open_append h)
  cases hc with
  | descendant h =>
    refine ⟨[], .inl rfl, ?_⟩
    have : startsSimple s = true := hst fun c hc => h rfl c tl (by rw [hc])
    rw [peekOp.eq_def]
    simp [this, opOf]
  | child hg hg' h => exact hd (.inl ⟨rfl, rfl⟩) hg hg' h
  | adjacent hg hg' h => exact hd (.inr (.inl ⟨rfl, rfl⟩)) hg hg' h
  | subsequent hg hg' h => exact hd (.inr (.inr ⟨rfl, rfl⟩)) hg hg' h

theorem combText_ne {t c o} (h : CombText true t c o) : c ≠ [] ∧ o ≠ .column := by
  cases h <;> simp

theorem comma_peek {ns : Namespaces} {g g' t k x} (hg : Gap g) (hg' : Gap g') (ht : Comp ns t k)
    (hs : g = [] ∨ g' ≠ [] ∨ Open (t ++ x)) : peekOp (g ++ comma :: (g' ++ (t ++ x))) = (.or, g' ++ (t ++ x)) := by
  obtain ⟨s, tl, rfl, hsp, -⟩ := ht.start
  rcases hg with rfl | ⟨w, rfl⟩
  · exact peek_comma _
  · rw [List.singleton_append, peek_ws (by decide), peek_comma]
    simp only
    rw [skipLone_gap (x := s :: tl ++ x) (s := s) (r := tl ++ x) hg' rfl hsp]
    rcases hs with h | h | h
    · cases h
    · exact .inl h
    · exact .inr h

/-- What the reader may leave of a text that it stops at. -/
def after (c : List Sst) : List Sst := if (peekOp c).1 = .nop then (peekOp c).2 else c

/-- Either of them. -/
def Left (c x : List Sst) : Prop := x = c ∨ x = after c

theorem tail_end {ns : Namespaces} {T ls} (h : Tail ns T ls) (hl : ls = []) : peekOp T = (.nop, []) ∧ NoBar T ∧ (T = [] ∨ ∃ d, T = [.tok ⟨.ws, d⟩]) := by
  cases h with
  | nil => exact ⟨rfl, noBar_nil, .inl rfl⟩
  | ws => exact ⟨rfl, noBar_tok (by simp), .inr ⟨_, rfl⟩⟩
  | more => cases hl

theorem tail_more {ns : Namespaces} {T ls} (h : Tail ns T ls) (hl : ls ≠ []) : (peekOp T).1 = .or ∧ NoBar T := by
  cases h with
  | nil => exact absurd rfl hl
  | ws => exact absurd rfl hl
  | more hg hg' hs hc =>
    have := comma_peek hg hg' hc hs
    exact ⟨by rw [this], noBar_of_peek (by rw [this]; simp)⟩

theorem tail_rank {ns : Namespaces} {T ls} (h : Tail ns T ls) : (peekOp T).1.rank ≤ 1 ∧ NoBar T := by
  rcases Classical.em (ls = []) with hl | hl
  · have := tail_end h hl
    exact ⟨by rw [this.1]; decide, this.2.1⟩
  · have := tail_more h hl
    exact ⟨by rw [this.1]; decide, this.2⟩

theorem opOf_rank {o : Comb} (h : o ≠ .column) : 2 ≤ (opOf o).rank ∧ (opOf o).rank < 8 ∧ opOf o ≠ .nop ∧ opOf o ≠ .and ∧ opOf o ≠ .or ∧ (opOf o).comb = some o := by
  cases o <;> first | exact absurd rfl h | decide

/-- Where the reader stops behind a compound selector. -/
theorem stop {ns : Namespaces} {r l T ls} (hr : Items ns r l) (hT : Tail ns T ls) : NoBar (r ++ T) ∧ (peekOp (r ++ T)).1 ≠ .and := by
  cases hr with
  | nil =>
    have := tail_rank hT
    refine ⟨this.2, fun h => ?_⟩
    have h1 := this.1
    rw [List.nil_append] at h
    rw [h] at h1
    revert h1; decide
  | cons ht hc hr =>
    obtain ⟨g, _, hp⟩ := comb_peek hc ht (_ ++ T)
    have := opOf_rank (combText_ne hc).2
    rw [List.append_assoc, List.append_assoc]
    exact ⟨noBar_of_peek (by rw [hp]; exact this.2.2.1), by rw [hp]; exact this.2.2.2.1⟩

/-- Behind combinators nothing is skipped. -/
theorem left_items {ns : Namespaces} {c o t k r l T X} (ht : Comp ns t k) (hc : CombText true t c o) (_ : Items ns r l)
    (h : Left ((c ++ (t ++ r)) ++ T) X) : X = c ++ (t ++ (r ++ T)) := by
  obtain ⟨g, _, hp⟩ := comb_peek hc ht (r ++ T)
  have e : (c ++ (t ++ r)) ++ T = c ++ (t ++ (r ++ T)) := by simp
  rw [e] at h
  rcases h with h | h
  · exact h
  · rw [h, after, hp, if_neg (opOf_rank (combText_ne hc).2).2.2.1]

theorem left_more {ns : Namespaces} {T ls X} (h : Tail ns T ls) (hl : ls ≠ []) (hX : Left T X) : X = T := by
  rcases hX with h' | h'
  · exact h'
  · rw [h', after, (tail_more h hl).1, if_neg (by simp)]

theorem left_end {ns : Namespaces} {T ls X} (h : Tail ns T ls) (hl : ls = []) (hX : Left T X) : X = [] ∨ ∃ d, X = [.tok ⟨.ws, d⟩] := by
  have := tail_end h hl
  rcases hX with h' | h'
  · rw [h']; exact this.2.2
  · rw [h', after, this.1]
    exact .inl rfl

/-! ## Compound selectors -/

theorem elem_gap {ns : Namespaces} {op : Op} {g c : List Sst} {v} (hg : Gap g) (h : Reads (fun n => elem n ns op c) v) :
    Reads (fun n => elem n ns op (g ++ c)) v := by
  rcases hg with rfl | ⟨d, rfl⟩
  · exact h
  · refine Reads.succ (h.congr fun n => ?_)
    rw [List.singleton_append, elem]
    simp [Sst.is]

/-- The first step of `elem`. -/
theorem elem_simple {ns : Namespaces} {op : Op} {t : List Sst} {s : Selector} (h : SimpleReads ns t s) {rest : List Sst} (hb : NoBar rest)
    {v} (h' : Reads (fun n => if rest.isEmpty then .ok (s, rest)
      else if (peekOp rest).1.rank > op.rank then infixE n ns s (peekOp rest).1 (peekOp rest).2 else .ok (s, rest)) v) :
    Reads (fun n => elem n ns op (t ++ rest)) v := by
  obtain ⟨x, tl, rfl, hs, _, hr⟩ := h.head
  refine Reads.succ (((hr rest hb).bind (g := fun n p => if p.2.isEmpty then .ok p
      else if (peekOp p.2).1.rank > op.rank then infixE n ns p.1 (peekOp p.2).1 (peekOp p.2).2 else .ok p) h').congr fun n => ?_)
  rw [List.cons_append, elem, notSpace_is hs]
  rfl

theorem elem_stop {ns : Namespaces} {op : Op} {t : List Sst} {s : Selector} (h : SimpleReads ns t s) {rest : List Sst} (hb : NoBar rest)
    (hr : (peekOp rest).1.rank ≤ op.rank) : Reads (fun n => elem n ns op (t ++ rest)) (s, rest) := by
  refine elem_simple h hb ((Reads.pure _).congr fun n => ?_)
  split
  · rfl
  · rw [if_neg (by omega)]

theorem elem_go {ns : Namespaces} {op : Op} {t : List Sst} {s : Selector} (h : SimpleReads ns t s) {rest : List Sst} (hb : NoBar rest)
    (hr : (peekOp rest).1.rank > op.rank) {v} (h' : Reads (fun n => infixE n ns s (peekOp rest).1 (peekOp rest).2) v) :
    Reads (fun n => elem n ns op (t ++ rest)) v := by
  refine elem_simple h hb (h'.congr fun n => ?_)
  have : rest.isEmpty = false := by
    cases rest with
    | nil => simp [peekOp, Op.rank] at hr
    | cons => rfl
  rw [this, if_neg (by simp), if_pos hr]

theorem row_head {ns : Namespaces} {t s t' l} (h : AndReads ns t s) (_ : Row ns t' l) (rest : List Sst) :
    peekOp ((t ++ t') ++ rest) = (.and, (t ++ t') ++ rest) := by
  rw [List.append_assoc]
  exact h.next _

/-- The loop over simple selectors. -/
theorem row_loop {ns : Namespaces} {rest : List Sst} (hr : (peekOp rest).1 ≠ .and) (hb : NoBar rest) {t l} (h : Row ns t l) :
    ∀ pre last, Reads (fun n => nfixLoop n ns .and pre last (t ++ rest)) (pre ++ last :: l, after rest) := by
  induction h with
  | nil =>
    intro pre last
    refine Reads.succ ((Reads.pure _).congr fun n => ?_)
    rw [List.nil_append, nfixLoop]
    cases rest with
    | nil => simp [after, peekOp]
    | cons x r =>
      rw [if_neg (by simp)]
      simp only [after]
      split
      · rfl
      · rw [if_pos ?_]
        generalize (peekOp (x :: r)).1 = o at *
        cases o <;> first | exact absurd rfl hr | decide
  | @cons t s t' l h ht ih =>
    intro pre last
    have hp := row_head h ht rest
    have hnb : NoBar (t' ++ rest) := by
      cases ht with
      | nil => exact hb
      | cons h' ht' => exact noBar_of_peek (by rw [row_head h' ht']; simp)
    have he : Reads (fun n => elem n ns .and (t ++ (t' ++ rest))) (s, t' ++ rest) := by
      refine elem_stop h.toSimpleReads hnb ?_
      generalize (peekOp (t' ++ rest)).1 = o
      cases o <;> decide
    have := he.bind (g := fun n p => nfixLoop n ns .and (pre ++ [last]) p.1 p.2) (ih (pre ++ [last]) s)
    refine Reads.succ ?_
    have e : pre ++ [last] ++ s :: l = pre ++ last :: s :: l := by simp
    rw [e] at this
    refine this.congr fun n => ?_
    rw [nfixLoop, if_neg ?_]
    · simp only [hp]
      rw [if_neg (by simp), List.append_assoc]
      simp
    · obtain ⟨x, tl, rfl, _⟩ := h.head
      simp

/-- A compound selector of several simple ones. -/
theorem elem_multi {ns : Namespaces} {op : Op} (hop : op.rank < 8) {t k} (h : Comp ns t k) (hk : 2 ≤ k.length) {rest : List Sst}
    (hr : (peekOp rest).1 ≠ .and) (hb : NoBar rest) : Reads (fun n => elem n ns op (t ++ rest)) (allOf k, after rest) := by
  obtain ⟨t₁, s, t₂, l, rfl, rfl, hs, hl⟩ := h
  cases hl with
  | nil => simp at hk
  | @cons t₂ s₂ t₃ l h₂ h₃ =>
    have hp := row_head h₂ h₃ rest
    rw [List.append_assoc]
    refine elem_go hs (noBar_of_peek (by rw [hp]; simp)) (by rw [hp]; exact hop) ?_
    rw [hp]
    refine Reads.succ ?_
    have hnb : NoBar (t₃ ++ rest) := by
      cases h₃ with
      | nil => exact hb
      | cons h' ht' => exact noBar_of_peek (by rw [row_head h' ht']; simp)
    have he : Reads (fun n => elem n ns .and (t₂ ++ (t₃ ++ rest))) (s₂, t₃ ++ rest) := by
      refine elem_stop h₂.toSimpleReads hnb ?_
      generalize (peekOp (t₃ ++ rest)).1 = o
      cases o <;> decide
    have hn : Reads (fun n => nfix n ns s .and ((t₂ ++ t₃) ++ rest)) (.and (s :: s₂ :: l), after rest) := by
      refine Reads.succ ?_
      have := he.bind (g := fun n p => (nfixLoop n ns .and [s] p.1 p.2).bind fun q => .ok (joined .and q.1, q.2))
        (((row_loop hr hb h₃) [s] s₂).bind (g := fun _ q => .ok (joined .and q.1, q.2)) (Reads.pure _))
      refine (this.congr fun n => ?_)
      rw [nfix, List.append_assoc]
    refine hn.congr fun n => ?_
    rw [infixE]
    simp [Op.comb]

/-! ## Combinators -/

/-- One more combinator. -/
def step (s : Selector) (p : Comb × List Selector) : Selector := .infix p.1 s (allOf p.2)

theorem chain_step (k : List Selector) (l : List (Comb × List Selector)) : chain k l = l.foldl step (allOf k) := rfl

theorem Items.complete {ns : Namespaces} {r l} (h : Items ns r l) : ∀ p ∈ l, (allOf p.2).Complete := by
  induction h with
  | nil => simp
  | cons hc _ _ ih =>
    intro p hp
    rcases List.mem_cons.mp hp with rfl | hp
    · exact hc.complete
    · exact ih p hp

theorem foldl_rel {l : List (Comb × List Selector)} (hl : ∀ p ∈ l, (allOf p.2).Complete) : ∀ {a a' : Selector}, Rel a a' →
    Rel (l.foldl step a) (l.foldl step a') := by
  induction l with
  | nil => exact fun h => h
  | cons p l ih =>
    intro a a' h
    exact ih (fun q hq => hl q (by simp [hq])) (Rel.infix h (.refl (hl p (by simp))))

theorem infix_reads {ns : Namespaces} {o : Comb} (ho : o ≠ .column) {c : List Sst} {s X} (lhs : Selector)
    (h : Reads (fun n => elem n ns (opOf o) c) (s, X)) : Reads (fun n => infixE n ns lhs (opOf o) c) (.infix o lhs s, X) := by
  refine Reads.succ ?_
  refine (h.bind (g := fun _ p => .ok (.infix o lhs p.1, p.2)) (Reads.pure _)).congr fun n => ?_
  rw [infixE]
  simp [(opOf_rank ho).2.2.2.2.2]

theorem grouped_tail {p : Comb × List Selector} {l} (h : Grouped (p :: l)) : Grouped l := by
  cases l with
  | nil => simp [Grouped]
  | cons q l => obtain ⟨o, k⟩ := p; obtain ⟨o', k'⟩ := q; simp only [Grouped] at h; exact h.2

theorem single {ns : Namespaces} {t k} (h : Comp ns t k) (hk : ¬ 2 ≤ k.length) : ∃ s, k = [s] ∧ SimpleReads ns t s := by
  obtain ⟨t₁, s, t₂, l, rfl, rfl, hs, hl⟩ := h
  cases hl with
  | nil => exact ⟨s, rfl, by rw [List.append_nil]; exact hs⟩
  | cons => simp at hk

/-- What is read behind a combinator: a compound selector and some of those that follow it. -/
theorem elem_comb {ns : Namespaces} {T ls} (hT : Tail ns T ls) : ∀ {l r t k} {o : Comb}, o ≠ .column → Comp ns t k → Items ns r l →
    Grouped ((o, k) :: l) → ∃ s X l₁ r₂ l₂, l = l₁ ++ l₂ ∧ Items ns r₂ l₂ ∧ Grouped l₂ ∧ Left (r₂ ++ T) X ∧
      Reads (fun n => elem n ns (opOf o) (t ++ (r ++ T))) (s, X) ∧
      ∀ lhs : Selector, lhs.Complete → Rel (.infix o lhs s) (l₁.foldl step (.infix o lhs (allOf k))) := by
  intro l
  induction l with
  | nil =>
    intro r t k o ho ht hr hg
    have hrk := opOf_rank ho
    have hst := stop hr hT
    rcases Classical.em (2 ≤ k.length) with hk | hk
    · exact ⟨allOf k, after (r ++ T), [], r, [], rfl, hr, trivial, .inr rfl, elem_multi hrk.2.1 ht hk hst.2 hst.1,
        fun lhs hl => Rel.infix (.refl hl) (.refl ht.complete)⟩
    · obtain ⟨s, rfl, hs⟩ := single ht hk
      cases hr
      have := tail_rank hT
      exact ⟨s, T, [], [], [], rfl, .nil, trivial, .inl rfl, elem_stop hs this.2 (by rw [List.nil_append]; omega),
        fun lhs hl => Rel.infix (.refl hl) (.refl hs.complete)⟩
  | cons p l ih =>
    intro r t k o ho ht hr hg
    have hrk := opOf_rank ho
    have hst := stop hr hT
    have hgt := grouped_tail hg
    rcases Classical.em (2 ≤ k.length) with hk | hk
    · exact ⟨allOf k, after (r ++ T), [], r, _, rfl, hr, hgt, .inr rfl, elem_multi hrk.2.1 ht hk hst.2 hst.1,
        fun lhs hl => Rel.infix (.refl hl) (.refl ht.complete)⟩
    · obtain ⟨s, rfl, hs⟩ := single ht hk
      have hr0 := hr
      cases hr with
      | @cons c o₂ t₂ k₂ r₂ _ ht₂ hc₂ hr₂ =>
        obtain ⟨g, hgap, hp⟩ := comb_peek hc₂ ht₂ (r₂ ++ T)
        have e : (c ++ (t₂ ++ r₂)) ++ T = c ++ (t₂ ++ (r₂ ++ T)) := by simp
        have ho₂ := (combText_ne hc₂).2
        rcases Classical.em ((opOf o₂).rank ≤ (opOf o).rank) with hle | hgt'
        · exact ⟨s, _, [], _, _, rfl, hr0, hgt, .inl rfl, elem_stop hs hst.1 (by rw [e, hp]; exact hle),
            fun lhs hl => Rel.infix (.refl hl) (.refl hs.complete)⟩
        · obtain ⟨s₂, X, l₁, r', l', rfl, hr', hg', hX, hread, hrel⟩ := ih ho₂ ht₂ hr₂ hgt
          simp only [Grouped] at hg
          have hcase : (o = .descendant ∨ o = .child) ∧ (o₂ = .adjacent ∨ o₂ = .subsequent) := by
            have h1 := hg.1
            cases o <;> cases o₂ <;> simp_all [opOf, Op.rank]
          refine ⟨.infix o₂ s s₂, X, (o₂, k₂) :: l₁, r', l', rfl, hr', hg', hX, ?_, fun lhs hl => ?_⟩
          · rw [e]
            rw [e] at hst
            refine elem_go hs hst.1 (by rw [hp]; show (opOf o₂).rank > (opOf o).rank; omega) ?_
            rw [hp]
            exact infix_reads ho₂ s (elem_gap hgap hread)
          · have hs₂ : s₂.Complete := by
              have := (hrel lhs hl).complete
              simp only [Selector.Complete] at this
              exact this.2
            refine (regroup hcase.1 hcase.2 hl hs.complete hs₂).trans ?_
            exact hrel (.infix o lhs s) (by simp only [Selector.Complete]; exact ⟨hl, hs.complete⟩)

/-- What is read where a complex selector starts. -/
theorem elem_first {ns : Namespaces} {T ls} (hT : Tail ns T ls) {op : Op} (hop : op = .nop ∨ op = .or) {l r t k} (ht : Comp ns t k)
    (hr : Items ns r l) (hg : Grouped l) (hn : op = .nop → ls ≠ [] → 2 ≤ k.length ∨ l ≠ []) :
    ∃ s X l₁ r₂ l₂, l = l₁ ++ l₂ ∧ Items ns r₂ l₂ ∧ Grouped l₂ ∧ Left (r₂ ++ T) X ∧
      Reads (fun n => elem n ns op (t ++ (r ++ T))) (s, X) ∧ Rel s (l₁.foldl step (allOf k)) := by
  have hst := stop hr hT
  have hop8 : op.rank < 2 := by rcases hop with rfl | rfl <;> decide
  rcases Classical.em (2 ≤ k.length) with hk | hk
  · exact ⟨allOf k, after (r ++ T), [], r, _, rfl, hr, hg, .inr rfl, elem_multi (by omega) ht hk hst.2 hst.1, .refl ht.complete⟩
  · obtain ⟨s, rfl, hs⟩ := single ht hk
    cases hr with
    | nil =>
      refine ⟨s, T, [], [], [], rfl, .nil, trivial, .inl rfl, elem_stop hs hst.1 ?_, .refl hs.complete⟩
      rw [List.nil_append]
      rcases hop with rfl | rfl
      · have : ls = [] := Classical.byContradiction fun h => by
          rcases hn rfl h with h | h
          · exact hk h
          · exact h rfl
        rw [(tail_end hT this).1]
        decide
      · exact (tail_rank hT).1
    | @cons c o₂ t₂ k₂ r₂ _ ht₂ hc₂ hr₂ =>
      obtain ⟨g, hgap, hp⟩ := comb_peek hc₂ ht₂ (r₂ ++ T)
      have e : (c ++ (t₂ ++ r₂)) ++ T = c ++ (t₂ ++ (r₂ ++ T)) := by simp
      have ho₂ := (combText_ne hc₂).2
      obtain ⟨s₂, X, l₁, r', l', rfl, hr', hg', hX, hread, hrel⟩ := elem_comb hT ho₂ ht₂ hr₂ hg
      refine ⟨.infix o₂ s s₂, X, (o₂, k₂) :: l₁, r', l', rfl, hr', hg', hX, ?_, hrel s hs.complete⟩
      rw [e]
      rw [e] at hst
      refine elem_go hs hst.1 (by rw [hp]; show (opOf o₂).rank > op.rank; have := opOf_rank ho₂; omega) ?_
      rw [hp]
      exact infix_reads ho₂ s (elem_gap hgap hread)

/-! ## Lists -/

theorem skipTwo_ok {c : List Sst} {s : Sst} {r : List Sst} (hc : c ≠ []) (hs : NotSpace s) : skipTwo (c ++ s :: r) = c ++ s :: r := by
  cases c with
  | nil => exact absurd rfl hc
  | cons a c =>
    cases c with
    | nil =>
      cases r with
      | nil => simp [skipTwo, notSpace_is hs]
      | cons => simp [skipTwo]
    | cons b c =>
      unfold skipTwo
      split
      · rename_i e; simp at e
      · rfl

theorem skipTwo_left {ns : Namespaces} {r l T ls X} (hr : Items ns r l) (hT : Tail ns T ls) (hX : Left (r ++ T) X) : skipTwo X = X := by
  cases hr with
  | nil =>
    rcases Classical.em (ls = []) with hl | hl
    · rcases left_end hT hl hX with rfl | ⟨d, rfl⟩ <;> rfl
    · have := left_more hT hl hX
      subst this
      cases hT with
      | nil => rfl
      | ws => rfl
      | @more g g' t k r l c ls hg hg' _ hc _ _ _ =>
        obtain ⟨x, tl, rfl, hs, -⟩ := hc.start
        have e : g ++ comma :: (g' ++ (x :: tl ++ (r ++ c))) = (g ++ comma :: g') ++ x :: (tl ++ (r ++ c)) := by simp
        rw [e]
        exact skipTwo_ok (by simp) hs
  | cons ht hc hr =>
    have := left_items ht hc hr hX
    subst this
    obtain ⟨x, tl, rfl, hs, -⟩ := ht.start
    exact skipTwo_ok (combText_ne hc).1 hs

/-- Combinators in the loop of a list, when the rest is known. -/
theorem or_items {ns : Namespaces} {T ls} (hT : Tail ns T ls) {pre pre' : List Selector}
    (hbase : ∀ {X} {last last' : Selector}, Left T X → Rel last last' →
      ∃ v, Reads (fun n => nfixLoop n ns .or pre last X) (v, []) ∧ Rels v (pre' ++ last' :: ls)) : ∀ (m : Nat) {l r X} {last last' : Selector},
    l.length ≤ m → Items ns r l → Grouped l → Left (r ++ T) X → Rel last last' →
    ∃ v, Reads (fun n => nfixLoop n ns .or pre last X) (v, []) ∧ Rels v (pre' ++ l.foldl step last' :: ls) := by
  intro m
  induction m with
  | zero =>
    intro l r X last last' hm hr hg hX hlast
    cases hr with
    | nil => exact hbase hX hlast
    | cons => simp at hm
  | succ m ih =>
    intro l r X last last' hm hr hg hX hlast
    cases hr with
    | nil => exact hbase hX hlast
    | @cons c o t k r l ht hc hr =>
      have := left_items ht hc hr hX
      subst this
      have ho := (combText_ne hc).2
      have hrk := opOf_rank ho
      obtain ⟨g, hgap, hp⟩ := comb_peek hc ht (r ++ T)
      obtain ⟨s, X, l₁, r₂, l₂, rfl, hr₂, hg₂, hX₂, hread, hrel⟩ := elem_comb hT ho ht hr hg
      have hlast₂ : Rel (.infix o last s) (l₁.foldl step (.infix o last' (allOf k))) := by
        refine (hrel last hlast.complete).trans (foldl_rel (fun p hp => ?_) (Rel.infix hlast (.refl ht.complete)))
        exact hr.complete p (by simp [hp])
      obtain ⟨v, hv, hvr⟩ := ih (by simp at hm; omega) hr₂ hg₂ hX₂ hlast₂
      refine ⟨v, Reads.succ ?_, by simpa [step] using hvr⟩
      refine ((infix_reads ho last (elem_gap hgap hread)).bind
        (g := fun n p => nfixLoop n ns .or pre p.1 (skipTwo p.2)) (by simp only [skipTwo_left hr₂ hT hX₂]; exact hv)).congr fun n => ?_
      rw [nfixLoop, if_neg (by have := (combText_ne hc).1; simp [this])]
      simp only [hp]
      rw [if_neg hrk.2.2.1, if_neg hrk.2.2.2.2.1, if_neg (by have : Op.rank .or = 1 := rfl; omega), if_neg]
      rintro (h | h)
      · exact hrk.2.2.2.2.1 h
      · exact hrk.2.2.2.1 h

/-- The loop of a list: what is read so far goes on, and the rest follows. -/
theorem or_loop {ns : Namespaces} {T ls} (hT : Tail ns T ls) : ∀ {pre pre' : List Selector}, Rels pre pre' → ∀ {l r X} {last last' : Selector},
    Items ns r l → Grouped l → Left (r ++ T) X → Rel last last' →
    ∃ v, Reads (fun n => nfixLoop n ns .or pre last X) (v, []) ∧ Rels v (pre' ++ l.foldl step last' :: ls) := by
  have hends : ∀ {T : List Sst}, Tail ns T [] → ∀ {pre pre' : List Selector}, Rels pre pre' → ∀ {X} {last last' : Selector}, Left T X → Rel last last' →
      ∃ v, Reads (fun n => nfixLoop n ns .or pre last X) (v, []) ∧ Rels v (pre' ++ last' :: []) := by
    intro T hT pre pre' hpre X last last' hX hlast
    refine ⟨pre ++ [last], Reads.succ ((Reads.pure _).congr fun n => ?_), hpre.append (.cons hlast .nil)⟩
    rcases left_end hT rfl hX with rfl | ⟨d, rfl⟩ <;> simp [nfixLoop, peekOp]
  induction hT with
  | nil =>
    intro pre pre' hpre l r X last last' hr hg hX hlast
    exact or_items .nil (hends .nil hpre) _ (Nat.le_refl _) hr hg hX hlast
  | ws =>
    intro pre pre' hpre l r X last last' hr hg hX hlast
    exact or_items .ws (hends .ws hpre) _ (Nat.le_refl _) hr hg hX hlast
  | @more g g' t k r l c ls hg hg' hs ht hr hgr hT ih =>
    intro pre pre' hpre l' r' X last last' hr' hgr' hX hlast
    have hT' : Tail ns (g ++ comma :: (g' ++ (t ++ (r ++ c)))) (chain k l :: ls) := .more hg hg' hs ht hr hgr hT
    refine or_items hT' (fun {X last last'} hX hlast => ?_) _ (Nat.le_refl _) hr' hgr' hX hlast
    have := left_more hT' (by simp) hX
    subst this
    obtain ⟨s, X, l₁, r₂, l₂, rfl, hr₂, hg₂, hX₂, hread, hrel⟩ := elem_first hT (.inr rfl) ht hr hgr (by simp)
    obtain ⟨v, hv, hvr⟩ := ih (hpre.append (.cons hlast .nil)) hr₂ hg₂ hX₂ hrel
    refine ⟨v, Reads.succ ?_, by simpa [chain_step] using hvr⟩
    refine ((elem_gap hg' hread).bind (g := fun n p => nfixLoop n ns .or (pre ++ [last]) p.1 p.2) hv).congr fun n => ?_
    rw [nfixLoop, if_neg (by simp)]
    simp only [comma_peek hg hg' ht hs]
    rw [if_neg (by simp)]
    simp

/-- A list behind a complex selector. -/
theorem or_reads {ns : Namespaces} {T ls} (hT : Tail ns T ls) (hl : ls ≠ []) {lhs lhs' : Selector} (h : Rel lhs lhs') :
    (peekOp T).1 = .or ∧ T ≠ [] ∧ ∃ v, Reads (fun n => infixE n ns lhs .or (peekOp T).2) (.or v, []) ∧ Rels v (lhs' :: ls) := by
  cases hT with
  | nil => exact absurd rfl hl
  | ws => exact absurd rfl hl
  | @more g g' t k r l c ls hg hg' hs ht hr hgr hT =>
    obtain ⟨s, X, l₁, r₂, l₂, rfl, hr₂, hg₂, hX₂, hread, hrel⟩ := elem_first hT (.inr rfl) ht hr hgr (by simp)
    obtain ⟨v, hv, hvr⟩ := or_loop hT (.cons h .nil) hr₂ hg₂ hX₂ hrel
    have hp := comma_peek hg hg' ht hs
    refine ⟨by rw [hp], by simp, v, ?_, by simpa [chain_step] using hvr⟩
    rw [hp]
    have hn : Reads (fun n => nfix n ns lhs .or (g' ++ (t ++ (r ++ c)))) (.or v, []) :=
      Reads.succ (((elem_gap hg' hread).bind (g := fun n p => (nfixLoop n ns .or [lhs] p.1 p.2).bind fun q => .ok (joined .or q.1, q.2))
        (hv.bind (g := fun _ q => .ok (joined .or q.1, q.2)) (Reads.pure _))).congr fun n => by rw [nfix])
    refine Reads.succ (hn.congr fun n => ?_)
    rw [infixE]
    simp [Op.comb]

/-- Nothing is left. -/
theorem loop_nil {ns : Namespaces} (s : Selector) : Reads (fun n => loop n ns s []) s :=
  Reads.succ ((Reads.pure _).congr fun n => by simp [loop])

/-- One round of the loop. -/
theorem loop_step {ns : Namespaces} {s s' v : Selector} {c c' : List Sst} (hc : c ≠ [])
    (h : Reads (fun n => infixE n ns s (peekOp c).1 (peekOp c).2) (s', c')) (hl : c' = [] ∨ c'.length ≠ c.length)
    (h' : Reads (fun n => loop n ns s' c') v) : Reads (fun n => loop n ns s c) v := by
  refine Reads.succ ((h.bind (g := fun n p => if ¬ p.2.isEmpty ∧ p.2.length = c.length then .err else loop n ns p.1 p.2) ?_).congr fun n => ?_)
  · refine h'.congr fun n => ?_
    rw [if_neg]
    rintro ⟨h1, h2⟩
    rcases hl with rfl | hl
    · exact h1 rfl
    · exact hl h2
  · rw [loop, if_neg (by simpa using hc)]

theorem less_length {r c : List Sst} (h : Less r c) : r.length < c.length := by
  obtain ⟨x, l, rfl, h⟩ := h
  have := h.length_le
  simp only [List.length_cons]
  omega

/-- The loop of `parse`. -/
theorem top_loop {ns : Namespaces} {T ls} (hT : Tail ns T ls) : ∀ (m : Nat) {l r X} {acc acc' : Selector}, l.length ≤ m → Items ns r l →
    Grouped l → Left (r ++ T) X → Rel acc acc' →
    ∃ v, Reads (fun n => loop n ns acc X) (anyOf v) ∧ Rels v (l.foldl step acc' :: ls) := by
  have hbase : ∀ {X} {acc acc' : Selector}, Left T X → Rel acc acc' → ∃ v, Reads (fun n => loop n ns acc X) (anyOf v) ∧ Rels v (acc' :: ls) := by
    intro X acc acc' hX hacc
    rcases Classical.em (ls = []) with hl | hl
    · subst hl
      refine ⟨[acc], ?_, .cons hacc .nil⟩
      rcases left_end hT rfl hX with rfl | ⟨d, rfl⟩
      · exact loop_nil acc
      · refine loop_step (c' := []) (s' := acc) (by simp) ?_ (.inl rfl) (loop_nil acc)
        exact Reads.succ ((Reads.pure _).congr fun n => by simp [infixE, peekOp, Op.comb])
    · have := left_more hT hl hX
      subst this
      obtain ⟨hp, hne, v, hv, hvr⟩ := or_reads hT hl hacc
      refine ⟨v, ?_, hvr⟩
      refine loop_step (s' := .or v) (c' := []) hne (by rw [hp]; exact hv) (.inl rfl) ?_
      have : anyOf v = .or v := by
        have := hvr.length
        match v, ls, hl with
        | [], _, _ => rfl
        | [_], [], h => exact absurd rfl h
        | [_], _ :: _, _ => simp at this
        | _ :: _ :: _, _, _ => rfl
      rw [this]
      exact loop_nil _
  intro m
  induction m with
  | zero =>
    intro l r X acc acc' hm hr hg hX hacc
    cases hr with
    | nil => exact hbase hX hacc
    | cons => simp at hm
  | succ m ih =>
    intro l r X acc acc' hm hr hg hX hacc
    cases hr with
    | nil => exact hbase hX hacc
    | @cons c o t k r l ht hc hr =>
      have := left_items ht hc hr hX
      subst this
      have ho := (combText_ne hc).2
      obtain ⟨g, hgap, hp⟩ := comb_peek hc ht (r ++ T)
      obtain ⟨s, X, l₁, r₂, l₂, rfl, hr₂, hg₂, hX₂, hread, hrel⟩ := elem_comb hT ho ht hr hg
      have hacc₂ : Rel (.infix o acc s) (l₁.foldl step (.infix o acc' (allOf k))) := by
        refine (hrel acc hacc.complete).trans (foldl_rel (fun p hp => ?_) (Rel.infix hacc (.refl ht.complete)))
        exact hr.complete p (by simp [hp])
      obtain ⟨v, hv, hvr⟩ := ih (by simp at hm; omega) hr₂ hg₂ hX₂ hacc₂
      refine ⟨v, ?_, by simpa [step] using hvr⟩
      have hel := elem_gap hgap hread
      refine loop_step (by have := (combText_ne hc).1; simp [this]) (by rw [hp]; exact infix_reads ho acc hel) (.inr ?_) hv
      obtain ⟨N, hN⟩ := hel
      have h1 := less_length ((leaves ns N).elem (hN N (Nat.le_refl _)))
      have h2 := (peekOp_suffix (c ++ (t ++ (r ++ T)))).length_le
      rw [hp] at h2
      simp only at h1 h2
      omega

/-- A list of complex selectors. -/
theorem list_reads {ns : Namespaces} {g t k r l T ls} (hg : Gap g) (ht : Comp ns t k) (hr : Items ns r l) (hgr : Grouped l) (hT : Tail ns T ls) :
    ∃ v, Reads (fun n => parse n ns (g ++ (t ++ (r ++ T)))) (anyOf v) ∧ Rels v (chain k l :: ls) := by
  have hne : (g ++ (t ++ (r ++ T))).isEmpty = false := by
    obtain ⟨x, tl, rfl, _⟩ := ht.start
    simp
  have hpar : ∀ {s X v}, Reads (fun n => elem n ns .nop (t ++ (r ++ T))) (s, X) → Reads (fun n => loop n ns s X) v →
      Reads (fun n => parse n ns (g ++ (t ++ (r ++ T)))) v := by
    intro s X v h h'
    refine Reads.succ (((elem_gap hg h).bind (g := fun n p => loop n ns p.1 p.2) h').congr fun n => ?_)
    rw [parse, if_neg (by simp [hne])]
  rcases Classical.em (ls ≠ [] → 2 ≤ k.length ∨ l ≠ []) with h | h
  · obtain ⟨s, X, l₁, r₂, l₂, rfl, hr₂, hg₂, hX₂, hread, hrel⟩ := elem_first hT (.inl rfl) ht hr hgr (fun _ => h)
    obtain ⟨v, hv, hvr⟩ := top_loop hT _ (Nat.le_refl _) hr₂ hg₂ hX₂ hrel
    exact ⟨v, hpar hread hv, by simpa [chain_step] using hvr⟩
  · have hl : ls ≠ [] := Classical.byContradiction fun h' => h fun h'' => absurd h'' h'
    have hk : ¬ (2 ≤ k.length) := fun h' => h fun _ => .inl h'
    have hl' : l = [] := Classical.byContradiction fun h' => h fun _ => .inr h'
    subst hl'
    cases hr
    obtain ⟨s, rfl, hs⟩ := single ht hk
    obtain ⟨hp, _, v, hv, hvr⟩ := or_reads hT hl (Rel.refl hs.complete)
    refine ⟨v, ?_, hvr⟩
    have : anyOf v = .or v := by
      have := hvr.length
      match v, ls, hl with
      | [], _, _ => rfl
      | [_], [], h => exact absurd rfl h
      | [_], _ :: _, _ => simp at this
      | _ :: _ :: _, _, _ => rfl
    rw [this]
    refine hpar (elem_go hs (stop .nil hT).1 (by rw [List.nil_append, hp]; decide) ?_) (loop_nil _)
    rw [List.nil_append, hp]
    exact hv

end Verif.SelParse
