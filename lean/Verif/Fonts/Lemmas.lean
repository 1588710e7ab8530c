import Verif.Values.Props
import Verif.Fonts.Spec
/-! # Lemmas about fonts -/
namespace Verif.Fonts
open Verif.Values (Length Ctx AbsUnit RelUnit worth absTable Monotone resolveLength resolveRel_eq pixels)

theorem lookup_chosen (e : Env) (f : Font) :
    Chosen e ⟨f.weight, e.round (f.width * 10), f.style⟩ f.families (lookup e f) := by
  unfold lookup
  generalize (⟨f.weight, e.round (f.width * 10), f.style⟩ : Query) = q
  have key : ∀ l : List Nat, (∀ face, l.findSome? (fun n => e.query n q) = some face → Chosen e q l face) ∧
      (l.findSome? (fun n => e.query n q) = none → ∀ n ∈ l, e.query n q = none) := by
    intro l
    refine ⟨fun face h => ?_, fun h => List.findSome?_eq_none_iff.1 h⟩
    obtain ⟨pre, f, post, hl, hf, hn⟩ := List.findSome?_eq_some_iff.1 h
    subst hl
    exact .family hn hf
  show Chosen e q f.families (match f.families.findSome? (fun n => e.query n q) with
    | some face => face
    | none => match e.system with
      | some face => face
      | none => e.fallback)
  split
  · next face h => exact (key _).1 face h
  · next h =>
    have hn := (key _).2 h
    split
    · next face hs => exact .system hn hs
    · next hs => exact .builtin hn hs

/-- The face of these values is the one of their own font. -/
def Faced (e : Env) (v : Vals) : Prop := v.face = lookup e v.font

theorem update_faced {e : Env} {p : Vals} (h : Faced e p) (f : Font) : updateFace e p f = lookup e f := by
  unfold updateFace
  split
  · rfl
  · next hn =>
    have h1 : p.font.families = f.families := by
      apply Decidable.byContradiction; intro h1; exact hn (.inl h1)
    have h2 : p.font.weight = f.weight := by
      apply Decidable.byContradiction; intro h1; exact hn (.inr (.inl h1))
    have h3 : p.font.style = f.style := by
      apply Decidable.byContradiction; intro h1; exact hn (.inr (.inr (.inl h1)))
    have h4 : p.font.width = f.width := by
      apply Decidable.byContradiction; intro h1; exact hn (.inr (.inr (.inr h1)))
    rw [h]
    unfold lookup
    rw [h1, h2, h3, h4]

theorem compute_faced {e : Env} {p : Vals} (h : Faced e p) (root : Option Vals) (d : Decls) :
    Faced e (compute e root p d) := by
  unfold Faced compute
  exact update_faced h _

theorem mem_styleKids {e : Env} {r p : Vals} {ks : List El} {k : Styled} (h : k ∈ styleKids e r p ks) :
    ∃ k' ∈ ks, k = styleElement e (some r) p k' := by
  induction ks with
  | nil => simp [styleKids] at h
  | cons a l ih =>
    rw [styleKids, List.mem_cons] at h
    rcases h with h | h
    · exact ⟨a, by simp, h⟩
    · obtain ⟨k', h1, h2⟩ := ih h
      exact ⟨k', by simp [h1], h2⟩

/-- Under the root every element is computed from its parent and the values of the root. -/
theorem within_some {e : Env} {r p q v : Vals} {d : Decls} {el : El}
    (h : Within (styleElement e (some r) p el) p q d v) (hp : Faced e p) :
    Faced e q ∧ v = compute e (some r) q d := by
  generalize ht : styleElement e (some r) p el = t at h
  induction h generalizing el with
  | here =>
    cases el
    rw [styleElement] at ht
    injection ht with h1 h2 h3 h4
    subst h1 h2
    exact ⟨hp, rfl⟩
  | pseudo hm =>
    cases el
    rw [styleElement] at ht
    injection ht with h1 h2 h3 h4
    subst h1 h2 h3
    obtain ⟨d', _, he⟩ := List.mem_map.1 hm
    injection he with he1 he2
    subst he1 he2
    exact ⟨compute_faced hp _ _, rfl⟩
  | kid hm _ ih =>
    cases el
    rw [styleElement] at ht
    injection ht with h1 h2 h3 h4
    subst h1 h2 h4
    obtain ⟨k', _, he⟩ := mem_styleKids hm
    exact ih (compute_faced hp _ _) he.symm

theorem initial_faced (e : Env) : Faced e (initialStyled e) := rfl

theorem document_eq (e : Env) (d : Decls) (ps : List Decls) (ks : List El) :
    styleDocument e (.mk d ps ks) = .mk d (compute e none (initialStyled e) d)
      (ps.map fun p => (p, compute e (some (compute e none (initialStyled e) d)) (compute e none (initialStyled e) d) p))
      (styleKids e (compute e none (initialStyled e) d) (compute e none (initialStyled e) d) ks) := by
  rw [styleDocument, styleElement]

theorem below {e : Env} {el : El} {q v : Vals} {d : Decls} (h : Below (styleDocument e el) q d v) :
    Faced e q ∧ v = compute e (some (styleDocument e el).vals) q d := by
  cases el with
  | mk d0 ps ks =>
    rw [document_eq] at h ⊢
    have hf := compute_faced (initial_faced e) none d0
    cases h with
    | pseudo hm =>
      obtain ⟨d', _, he⟩ := List.mem_map.1 hm
      injection he with he1 he2
      subst he1 he2
      exact ⟨hf, rfl⟩
    | kid hm hw =>
      obtain ⟨k', _, he⟩ := mem_styleKids hm
      subst he
      exact within_some hw hf

theorem within {e : Env} {el : El} {q v : Vals} {d : Decls}
    (h : Within (styleDocument e el) (initialStyled e) q d v) :
    (q = initialStyled e ∧ v = (styleDocument e el).vals ∧ v = compute e none q d) ∨
      Below (styleDocument e el) q d v := by
  cases el with
  | mk d0 ps ks =>
    rw [document_eq] at h ⊢
    cases h with
    | here => exact .inl ⟨rfl, rfl, rfl⟩
    | pseudo hm => exact .inr (.pseudo hm)
    | kid hm hw => exact .inr (.kid hm hw)

theorem faced {e : Env} {el : El} {q v : Vals} {d : Decls}
    (h : Within (styleDocument e el) (initialStyled e) q d v) : Faced e q ∧ ∃ root, v = compute e root q d := by
  rcases within h with ⟨rfl, _, h⟩ | h
  · exact ⟨initial_faced e, none, h⟩
  · exact ⟨(below h).1, _, (below h).2⟩

theorem means_resolve {near : Rat → Int} (hn : Monotone near) {c : Ctx} {l : Length} {x : Rat} (h : Means c l x) :
    resolveLength near c l = near x := by
  cases h with
  | abs hk =>
    rename_i u per v
    have : ∀ x ∈ absTable, ∀ v : Rat, pixels v x.2.1 = v / x.2.2 * 96 := by
      simp only [absTable, List.mem_cons, List.not_mem_nil, or_false, forall_eq_or_imp, forall_eq, pixels]
      refine ⟨?_, ?_, ?_, ?_, ?_, ?_, ?_⟩ <;> intro v <;> grind
    simp only [resolveLength, this _ hk]
  | rel h => exact resolveRel_eq near hn c _ _ h

end Verif.Fonts
