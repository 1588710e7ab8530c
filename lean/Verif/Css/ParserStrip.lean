import Verif.Css.ParserLemmas

namespace Verif.Css
open Spec

/-! ## Joining block contents -/

theorem block_join {c : List Tok} {l : List Sst} (h : BlockText true c l) {e : Tok} (he : e.type = .semi) {b : List Tok} {m : List Sst}
    (hb : BlockText true b m) : BlockText true (c ++ e :: b) (l ++ m) := by
  cases h with
  | nil => exact .skip (.inr (.inl he)) hb
  | skip ht hc => exact .skip ht (block_join hc he hb)
  | last hd => exact .decl hd he hb
  | @decl d s e' c l hd he' hc =>
    have := BlockText.decl hd he' (block_join hc he hb)
    simpa using this
  | @«at» a s c l ha hc =>
    have := BlockText.at ha (block_join hc he hb)
    simpa using this
  | @rule t r s c l hr ht hi hc =>
    have := BlockText.rule hr ht hi (block_join hc he hb)
    simpa using this
  | bad h => cases h
termination_by c.length
decreasing_by
  all_goals simp_wf
  all_goals try omega
  · cases ha <;> simp

/-! ## Taking the comments out -/

theorem strip_append (a b : List Tok) : strip (a ++ b) = strip a ++ strip b := List.filter_append ..

theorem strip_keep {t : Tok} (h : t.type ≠ .comment) (r : List Tok) : strip (t :: r) = t :: strip r := by
  simp [strip, h]

theorem strip_drop {t : Tok} (h : t.type = .comment) (r : List Tok) : strip (t :: r) = strip r := by
  simp [strip, h]

theorem strip_blank {w : List Tok} (h : BlankT w) : strip w = w := by
  unfold strip
  rw [List.filter_eq_self]
  intro t ht
  simp [h t ht]

theorem closes_not_comment {o e : TT} (h : closes o = some e) : o ≠ .comment ∧ e ≠ .comment := by
  cases o <;> simp [closes] at h <;> subst h <;> decide

mutual
theorem strip_value {v : List Tok} {s : Sst} (h : ValueText true v s) : ValueText true (strip v) s := by
  cases h with
  | @tok t h =>
    rw [strip_keep (fun h' => h (by rw [h']; decide))]
    exact .tok h
  | @block o c e l h hi =>
    have hc := closes_not_comment h
    rw [strip_keep hc.1, strip_append, strip_keep hc.2]
    exact .block h (strip_items hi)
  | @func f c e l hf he hi =>
    rw [strip_keep (by rw [hf]; decide), strip_append, strip_keep (by rw [he]; decide)]
    exact .func hf he (strip_items hi)
termination_by 2 * v.length

theorem strip_items {b : Bool} {c : List Tok} {l : List Sst} (h : ItemsText true b c l) : ItemsText true b (strip c) l := by
  cases h with
  | nil => exact .nil
  | @cons _ v s c l hv hc =>
    rw [strip_append]
    have : 0 < v.length := by obtain ⟨t, v', rfl, _⟩ := value_head hv; simp
    exact .cons (strip_value hv) (strip_items hc)
  | @comment _ k c l h hk hc =>
    rw [strip_drop hk]
    exact strip_items hc
termination_by 2 * c.length + 1
end

/-- The first token that is not white space stays the first. -/
theorem strip_first {ok : Tok → Prop} {p : List Tok} {l : List Sst} (h : SeqText true ok p l) {o : Tok} (ho : o.type = .lcurly)
    (x : List Tok) {w : List Tok} {k : Tok} {r : List Tok} (e : strip (p ++ o :: x) = w ++ k :: r) (hw : BlankT w) :
    ∃ r', p ++ o :: x = w ++ k :: r' := by
  induction h generalizing w with
  | nil =>
    rw [List.nil_append, strip_keep (by rw [ho]; decide)] at e
    cases w with
    | nil =>
      rw [List.nil_append, List.cons.injEq] at e
      exact ⟨x, by rw [← e.1, List.nil_append]⟩
    | cons a w =>
      rw [List.cons_append, List.cons.injEq] at e
      obtain ⟨rfl, _⟩ := e
      have := hw _ (List.mem_cons_self ..)
      rw [ho] at this
      cases this
  | @cons t v s c l hv hok hc ih =>
    obtain ⟨_, _, e', ht⟩ := value_head hv
    cases e'
    have e1 : (t :: v ++ c) ++ o :: x = t :: (v ++ (c ++ o :: x)) := by simp
    rw [e1, strip_keep (fun h => ht (by rw [h]; decide))] at e
    cases w with
    | nil =>
      rw [List.nil_append, List.cons.injEq] at e
      exact ⟨_, by rw [e1, ← e.1]; rfl⟩
    | cons a w =>
      rw [List.cons_append, List.cons.injEq] at e
      obtain ⟨rfl, e⟩ := e
      have hws := hw _ (List.mem_cons_self ..)
      have hv0 : v = [] := by
        generalize hy : t :: v = y at hv
        cases hv with
        | tok => cases hy; rfl
        | block h => cases hy; rw [hws] at h; cases h
        | func h => cases hy; rw [hws] at h; cases h
      subst hv0
      obtain ⟨r', e2⟩ := ih (w := w) (by simpa using e) fun y hy => hw y (List.mem_cons_of_mem _ hy)
      exact ⟨r', by simpa using e2⟩
  | comment h => cases h

theorem strip_seq {ok : Tok → Prop} {p : List Tok} {l : List Sst} (h : SeqText true ok p l) : SeqText true ok (strip p) l := by
  induction h with
  | nil => exact .nil
  | @cons t v s c l hv hok hc ih =>
    obtain ⟨_, _, e', ht⟩ := value_head hv
    cases e'
    have := strip_value hv
    rw [strip_keep (fun h => ht (by rw [h]; decide))] at this
    rw [strip_append, strip_keep (fun h => ht (by rw [h]; decide))]
    exact .cons this hok ih
  | comment h => cases h

theorem strip_declValue {v : List Tok} {l : List Sst} (h : DeclValue true v l) : DeclValue true (strip v) l := by
  induction h with
  | nil => exact .nil
  | @cons t v s w c l hv h1 h2 h3 hw hc ih =>
    obtain ⟨_, _, e', ht⟩ := value_head hv
    cases e'
    have := strip_value hv
    rw [strip_keep (fun h => ht (by rw [h]; decide))] at this
    rw [strip_append, strip_append, strip_blank hw, strip_keep (fun h => ht (by rw [h]; decide))]
    exact .cons this h1 h2 h3 hw ih
  | comment h => cases h

theorem strip_imp {i : List Tok} {b : Bool} (h : ImpText i b) : strip i = i := by
  cases h with
  | none => rfl
  | some hb h1 hi _ h2 =>
    rw [strip_keep (by rw [hb.1]; decide), strip_append, strip_blank h1, strip_keep (by rw [hi]; decide), strip_blank h2]

theorem strip_decl {d : List Tok} {s : Sst} (h : DeclText true d s) : DeclText true (strip d) s := by
  cases h with
  | mk hn hd h1 hk h2 hv hi =>
    rw [strip_keep (by rw [hn]; decide), strip_append, strip_blank h1, strip_keep (by rw [hk]; decide), strip_append,
      strip_blank h2, strip_append, strip_imp hi]
    exact .mk hn hd h1 hk h2 (strip_declValue hv) hi

mutual
theorem strip_block {c : List Tok} {l : List Sst} (h : BlockText true c l) : BlockText true (strip c) l := by
  cases h with
  | nil => exact .nil
  | @skip t c l ht hc =>
    by_cases h : t.type = .comment
    · rw [strip_drop h]; exact strip_block hc
    · rw [strip_keep h]; exact .skip ht (strip_block hc)
  | last hd => exact .last (strip_decl hd)
  | @decl d s e c l hd he hc =>
    rw [strip_append, strip_keep (by rw [he]; decide)]
    exact .decl (strip_decl hd) he (strip_block hc)
  | @«at» a s c l ha hc =>
    have : 0 < a.length := by cases ha <;> simp
    rw [strip_append]
    exact .at (strip_at ha) (strip_block hc)
  | @rule t r s c l hr ht hi hc =>
    have htc : t.type ≠ .comment := fun h => ht (by rw [h]; decide)
    have hrule := strip_rule hr
    rw [strip_keep htc] at hrule
    rw [strip_append, strip_keep htc]
    refine .rule hrule ht ?_ (strip_block hc)
    intro _ hid w k r' e hw
    have : ∃ r'', r = w ++ k :: r'' := by
      generalize hx : t :: r = x at hr
      cases hr with
      | @mk p m o c' m' e' hp ho hc' he' =>
        cases hp with
        | nil =>
          simp only [List.nil_append, List.cons.injEq] at hx
          rw [hx.1, ho] at hid; cases hid
        | @cons t' v s' p l hv hok hp =>
          simp only [List.cons_append, List.cons.injEq] at hx
          obtain ⟨rfl, rfl⟩ := hx
          have hv0 : v = [] := by
            generalize hy : t :: v = y at hv
            cases hv with
            | tok => cases hy; rfl
            | block h => cases hy; rw [hid] at h; cases h
            | func h => cases hy; rw [hid] at h; cases h
          subst hv0
          rw [List.nil_append] at e ⊢
          exact strip_first hp ho _ e hw
        | comment h => cases h
    obtain ⟨r'', e''⟩ := this
    exact hi rfl hid w k r'' e'' hw
  | bad h => cases h
termination_by 2 * c.length + 1

theorem strip_at {a : List Tok} {s : Sst} (h : AtText true a s) : AtText true (strip a) s := by
  cases h with
  | semi hk hp he =>
    rw [strip_keep (by rw [hk]; decide), strip_append, strip_keep (by rw [he]; decide)]
    exact .semi hk (strip_seq hp) he
  | block hk hp ho hc he =>
    rw [strip_keep (by rw [hk]; decide), strip_append, strip_keep (by rw [ho]; decide), strip_append, strip_keep (by rw [he]; decide)]
    exact .block hk (strip_seq hp) ho (strip_block hc) he
termination_by 2 * a.length

theorem strip_rule {r : List Tok} {s : Sst} (h : RuleText true r s) : RuleText true (strip r) s := by
  cases h with
  | mk hp ho hc he =>
    rw [strip_append, strip_keep (by rw [ho]; decide), strip_append, strip_keep (by rw [he]; decide)]
    exact .mk (strip_seq hp) ho (strip_block hc) he
termination_by 2 * r.length
end

theorem strip_sheet {c : List Tok} {l : List Sst} (h : SheetText true c l) : SheetText true (strip c) l := by
  induction h with
  | nil => exact .nil
  | @skip t c l ht hc ih =>
    by_cases h : t.type = .comment
    · rw [strip_drop h]; exact ih
    · rw [strip_keep h]; exact .skip ht ih
  | cd h => cases h
  | «at» ha _ ih => rw [strip_append]; exact .at (strip_at ha) ih
  | @rule t r s c l hr ht _ ih =>
    have htc : t.type ≠ .comment := fun h => ht (by rw [h]; decide)
    have hrule := strip_rule hr
    rw [strip_keep htc] at hrule
    rw [strip_append, strip_keep htc]
    exact .rule hrule ht ih

end Verif.Css
