import Verif.Html.Tags
/-
Comments, read from their first character to their last.
-/
namespace Verif.Html
open Spec

/-- Reading one character with a number of reconsumptions. -/
inductive Reads (E : Env) (c : Char) : Nat → Lex → Lex → Prop
  | stay {s t : Lex} : step E s c false = (t, false) → Reads E c 0 s t
  | again {n : Nat} {s s' t : Lex} : step E s c false = (s', true) → Reads E c n s' t →
      Reads E c (n + 1) s t

theorem consumeN_reads {E : Env} {c : Char} {n : Nat} {s t : Lex} (h : Reads E c n s t) :
    ∀ k, n < k → consumeN E k s c false = t := by
  induction h with
  | stay h =>
    intro k hk
    cases k with
    | zero => omega
    | succ k => rw [consumeN_succ, h]; rfl
  | again h _ ih =>
    intro k hk
    cases k with
    | zero => omega
    | succ k => rw [consumeN_succ, h, if_pos rfl]; exact ih k (by omega)

theorem consume_reads {E : Env} {c : Char} {n : Nat} {s t : Lex} (h : Reads E c n s t)
    (hn : n < 12 := by omega) : consume E s c false = t := consumeN_reads h 12 hn

/-- The tokenizer inside a comment. -/
def cm (s : Lex) (st : State) (b : Str) : Lex :=
  { s with state := st, token := some { kind := .comment }, builder := b, peek := [] }

/-- The part of a comment that was read: it is in the buffer, up to a few characters that the
state stands for. -/
def Cm : State → Str → Str → Prop
  | .commentStart, b, x => b = [] ∧ x = []
  | .commentStartDash, b, x => b = [] ∧ x = ['-']
  | .comment, b, x | .commentLessThan, b, x | .commentLessThanBang, b, x => x = b
  | .commentLessThanBangDash, b, x | .commentEndDash, b, x => x = b ++ ['-']
  | .commentLessThanBangDashDash, b, x | .commentEnd, b, x => x = b ++ ['-', '-']
  | .commentEndBang, b, x => x = b ++ ['-', '-', '!']
  | _, _, _ => False

/-- An ordinary character of a comment. -/
theorem cm_comment (E : Env) (s : Lex) (b : Str) {c : Char} (h0 : c ≠ '\x00') :
    ∃ st b', Reads E c 0 (cm s .comment b) (cm s st b') ∧ Cm st b' (b ++ [c]) := by
  by_cases h1 : c = '<'
  · exact ⟨.commentLessThan, b ++ [c], .stay (by subst h1; rfl), rfl⟩
  by_cases h2 : c = '-'
  · exact ⟨.commentEndDash, b, .stay (by subst h2; rfl), by subst h2; rfl⟩
  · refine ⟨.comment, b ++ [c], .stay ?_, rfl⟩
    show onComment E _ c false = _
    unfold onComment
    rw [if_neg h1, if_neg h2, if_neg h0, if_neg (by decide)]
    rfl

theorem cm_commentEnd (E : Env) (s : Lex) (b : Str) {c : Char} (h0 : c ≠ '\x00') (h1 : c ≠ '>') :
    ∃ st b' n, Reads E c n (cm s .commentEnd b) (cm s st b') ∧ n ≤ 1 ∧
      Cm st b' (b ++ ['-', '-'] ++ [c]) := by
  by_cases h2 : c = '!'
  · exact ⟨.commentEndBang, b, 0, .stay (by subst h2; rfl), by omega, by subst h2; simp [Cm]⟩
  by_cases h3 : c = '-'
  · exact ⟨.commentEnd, b ++ ['-'], 0, .stay (by subst h3; rfl), by omega, by subst h3; simp [Cm]⟩
  · obtain ⟨st, b', hr, hc⟩ := cm_comment E s (b ++ ['-', '-']) h0
    refine ⟨st, b', 1, .again ?_ hr, by omega, hc⟩
    show onCommentEnd E _ c false = _
    unfold onCommentEnd
    rw [if_neg h1, if_neg h2, if_neg h3, if_neg (by decide)]
    rfl

theorem cm_endDash (E : Env) (s : Lex) (b : Str) {c : Char} (h0 : c ≠ '\x00') :
    ∃ st b' n, Reads E c n (cm s .commentEndDash b) (cm s st b') ∧ n ≤ 1 ∧
      Cm st b' (b ++ ['-'] ++ [c]) := by
  by_cases h2 : c = '-'
  · exact ⟨.commentEnd, b, 0, .stay (by subst h2; rfl), by omega, by subst h2; simp [Cm]⟩
  · obtain ⟨st, b', hr, hc⟩ := cm_comment E s (b ++ ['-']) h0
    refine ⟨st, b', 1, .again ?_ hr, by omega, hc⟩
    show onCommentEndDash E _ c false = _
    unfold onCommentEndDash
    rw [if_neg h2, if_neg (by decide)]
    rfl

/-- One more character of a comment. -/
theorem cm_step (E : Env) (s : Lex) {d x y b : Str} {c : Char} {st : State}
    (hd : CommentText d) (hx : d = x ++ c :: y) (h : Cm st b x) :
    ∃ st' b', consume E (cm s st b) c false = cm s st' b' ∧ Cm st' b' (x ++ [c]) := by
  obtain ⟨d1, d2, d3, d4, d5⟩ := hd
  have h0 : c ≠ '\x00' := by
    intro e
    apply d5
    rw [hx, e]; simp
  have plain : ∀ b, Cm .comment b x → ∃ st' b', Reads E c 0 (cm s .comment b) (cm s st' b') ∧
      Cm st' b' (x ++ [c]) := by
    intro b hb
    have hb : x = b := hb
    rw [hb]
    exact cm_comment E s b h0
  cases st <;> simp only [Cm] at h
  case commentStart =>
    obtain ⟨rfl, rfl⟩ := h
    by_cases h1 : c = '-'
    · exact ⟨.commentStartDash, [], consume_reads (.stay (by subst h1; rfl)), by subst h1; simp [Cm]⟩
    have h2 : c ≠ '>' := fun e => d1 y (by rw [hx, e]; rfl)
    obtain ⟨st', b', hr, hc⟩ := plain [] rfl
    refine ⟨st', b', consume_reads (.again ?_ hr), hc⟩
    show onCommentStart E _ c false = _
    unfold onCommentStart
    rw [if_neg h1, if_neg h2]
    rfl
  case commentStartDash =>
    obtain ⟨rfl, rfl⟩ := h
    by_cases h1 : c = '-'
    · exact ⟨.commentEnd, [], consume_reads (.stay (by subst h1; rfl)), by subst h1; simp [Cm]⟩
    have h2 : c ≠ '>' := fun e => d2 y (by rw [hx, e]; rfl)
    obtain ⟨st', b', hr, hc⟩ := cm_comment E s ['-'] h0
    refine ⟨st', b', consume_reads (.again ?_ hr), hc⟩
    show onCommentStartDash E _ c false = _
    unfold onCommentStartDash
    rw [if_neg h1, if_neg h2, if_neg (by decide)]
    rfl
  case comment =>
    obtain ⟨st', b', hr, hc⟩ := plain b h
    exact ⟨st', b', consume_reads hr, hc⟩
  case commentLessThan =>
    by_cases h1 : c = '!'
    · exact ⟨.commentLessThanBang, b ++ [c], consume_reads (.stay (by subst h1; rfl)), by rw [h]; rfl⟩
    by_cases h2 : c = '<'
    · exact ⟨.commentLessThan, b ++ [c], consume_reads (.stay (by subst h2; rfl)), by rw [h]; rfl⟩
    obtain ⟨st', b', hr, hc⟩ := plain b h
    refine ⟨st', b', consume_reads (.again ?_ hr), hc⟩
    show onCommentLessThan E _ c false = _
    unfold onCommentLessThan
    rw [if_neg h1, if_neg h2]
    rfl
  case commentLessThanBang =>
    by_cases h1 : c = '-'
    · exact ⟨.commentLessThanBangDash, b, consume_reads (.stay (by subst h1; rfl)), by subst h1; rw [h]; rfl⟩
    obtain ⟨st', b', hr, hc⟩ := plain b h
    refine ⟨st', b', consume_reads (.again ?_ hr), hc⟩
    show onCommentLessThanBang E _ c false = _
    unfold onCommentLessThanBang
    rw [if_neg h1]
    rfl
  case commentLessThanBangDash =>
    by_cases h1 : c = '-'
    · exact ⟨.commentLessThanBangDashDash, b, consume_reads (.stay (by subst h1; rfl)), by
        subst h1; rw [h]; simp [Cm]⟩
    obtain ⟨st', b', n, hr, hn, hc⟩ := cm_endDash E s b h0
    refine ⟨st', b', consume_reads (.again ?_ hr), by rw [h]; exact hc⟩
    show onCommentLessThanBangDash E _ c false = _
    unfold onCommentLessThanBangDash
    rw [if_neg h1]
    rfl
  case commentLessThanBangDashDash =>
    have h2 : c ≠ '>' := fun e => d3 b y (by rw [hx, e, h]; simp)
    obtain ⟨st', b', n, hr, hn, hc⟩ := cm_commentEnd E s b h0 h2
    exact ⟨st', b', consume_reads (.again rfl hr), by rw [h]; exact hc⟩
  case commentEndDash =>
    obtain ⟨st', b', n, hr, hn, hc⟩ := cm_endDash E s b h0
    exact ⟨st', b', consume_reads hr, by rw [h]; exact hc⟩
  case commentEnd =>
    have h2 : c ≠ '>' := fun e => d3 b y (by rw [hx, e, h]; simp)
    obtain ⟨st', b', n, hr, hn, hc⟩ := cm_commentEnd E s b h0 h2
    exact ⟨st', b', consume_reads hr, by rw [h]; exact hc⟩
  case commentEndBang =>
    have h2 : c ≠ '>' := fun e => d4 b y (by rw [hx, e, h]; simp)
    by_cases h1 : c = '-'
    · exact ⟨.commentEndDash, b ++ ['-', '-', '!'], consume_reads (.stay (by subst h1; rfl)), by
        subst h1; rw [h]; simp [Cm]⟩
    obtain ⟨st', b', hr, hc⟩ := cm_comment E s (b ++ ['-', '-', '!']) h0
    refine ⟨st', b', consume_reads (.again ?_ hr), by rw [h]; exact hc⟩
    show onCommentEndBang E _ c false = _
    unfold onCommentEndBang
    rw [if_neg h1, if_neg h2, if_neg (by decide)]
    rfl

theorem cm_text (E : Env) (s : Lex) {d : Str} (hd : CommentText d) (w : Str) :
    ∀ (y x b : Str) (st : State), d = x ++ y → Cm st b x →
      ∃ st' b', fin E (cm s st b) (y ++ w) = fin E (cm s st' b') w ∧ Cm st' b' d
  | [], x, b, st, hx, h => ⟨st, b, rfl, by rw [hx, List.append_nil]; exact h⟩
  | c :: y, x, b, st, hx, h => by
    obtain ⟨st1, b1, e1, h1⟩ := cm_step E s hd hx h
    obtain ⟨st2, b2, e2, h2⟩ := cm_text E s hd w y (x ++ [c]) b1 st1 (by rw [hx]; simp) h1
    refine ⟨st2, b2, ?_, h2⟩
    show fin E _ (c :: (y ++ w)) = _
    rw [fin_cons, e1, e2]

/-- The token of a comment. -/
def commentTok (d : Str) : Token := { kind := .comment, data := d }

theorem cm_end (E : Env) (s : Lex) {d b : Str} {st : State} (h : Cm st b d) (w : Str) :
    fin E (cm s st b) ('-' :: '-' :: '>' :: w) =
      fin E (emit E { s with state := .data, token := some (commentTok d), builder := [], peek := [] }) w := by
  rw [fin_cons, fin_cons, fin_cons]
  congr 1
  cases st <;> simp only [Cm] at h
  case commentStart => obtain ⟨rfl, rfl⟩ := h; rfl
  case commentStartDash => obtain ⟨rfl, rfl⟩ := h; rfl
  case commentLessThanBangDashDash =>
    rw [show b ++ ['-', '-'] = b ++ ['-'] ++ ['-'] by simp] at h
    subst h; rfl
  case commentEnd =>
    rw [show b ++ ['-', '-'] = b ++ ['-'] ++ ['-'] by simp] at h
    subst h; rfl
  all_goals (subst h; rfl)

theorem comment_fin (E : Env) {s : Lex} (hs : s.state = .data) (hb : s.builder = [])
    (hp : s.peek = []) {d : Str} (hd : CommentText d) (w : Str) :
    fin E s ('<' :: '!' :: '-' :: '-' :: (d ++ '-' :: '-' :: '>' :: w)) =
      fin E (emit E { s with token := some (commentTok d) }) w := by
  have e : fin E s ('<' :: '!' :: '-' :: '-' :: (d ++ '-' :: '-' :: '>' :: w)) =
      fin E (cm s .commentStart []) (d ++ '-' :: '-' :: '>' :: w) := by
    rw [fin_cons, fin_cons, fin_cons, fin_cons]
    congr 1
    cases s
    simp only at hs hb hp
    subst hs hb hp
    rfl
  obtain ⟨st, b, e2, h⟩ := cm_text E s hd ('-' :: '-' :: '>' :: w) d [] [] .commentStart rfl ⟨rfl, rfl⟩
  rw [e, e2, cm_end E s h]
  cases s
  simp only at hs hb hp
  subst hs hb hp
  rfl

end Verif.Html
