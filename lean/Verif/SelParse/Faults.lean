import Verif.SelParse.Ends
/-!
# Reading selectors stays within safe texts
-/
namespace Verif.SelParse
open Verif.Css (Sst Tok TT Text u eatWs lower eqCi)
open Verif.Selector (Str Selector QSel NsPat AnB AttrSel AttrMatch Comb)
open Spec (Safe SafeOne Keyword delim)

theorem safe_suffix {r c : List Sst} (h : r <:+ c) (hs : Safe c) : Safe r := by
  obtain ⟨w, rfl⟩ := h
  induction w with
  | nil => exact hs
  | cons x w ih => exact ih (by rw [List.cons_append, Safe] at hs; exact hs.2.2.2.2)

theorem safe_head {s : Sst} {r : List Sst} (h : Safe (s :: r)) : SafeOne s := by
  rw [Safe] at h
  exact h.1

theorem is_tok {s : Sst} {t : TT} (h : s.is t = true) : ∃ d, s = .tok ⟨t, d⟩ := by
  cases s <;> simp [Sst.is] at h
  rename_i k
  exact ⟨k.data, by cases k; simp_all⟩

theorem isDelim_eq {d : String} {c : Nat} (hu : u d = [c]) (hc : ∀ x, lower x = lower c → x = c) {s : Sst}
    (h : isDelim d s = true) : s = delim c := by
  cases s <;> simp [isDelim] at h
  rename_i k
  cases k with
  | mk ty da =>
    simp [Tok.same, eqCi, hu] at h
    obtain ⟨rfl, h⟩ := h
    cases da with
    | nil => simp at h
    | cons x l =>
      cases l with
      | nil =>
        simp at h
        rw [hc x h]
        rfl
      | cons y l => simp at h

theorem lower_same {c : Nat} (h : ¬ (65 ≤ c ∧ c ≤ 90)) (h' : ¬ (97 ≤ c ∧ c ≤ 122)) (x : Nat) (e : lower x = lower c) : x = c := by
  unfold lower at e
  repeat' split at e
  all_goals omega

theorem bar_eq {s : Sst} (h : isDelim "|" s = true) : s = delim 124 :=
  isDelim_eq (by decide) (lower_same (by decide) (by decide)) h

theorem eq_eq {s : Sst} (h : isDelim "=" s = true) : s = delim 61 :=
  isDelim_eq (by decide) (lower_same (by decide) (by decide)) h

theorem skipDelim_some {d : String} {c r : List Sst} (h : skipDelim d c = some r) : ∃ s, c = s :: r ∧ isDelim d s = true := by
  unfold skipDelim at h
  split at h
  · cases h
  · split at h
    · cases h; exact ⟨_, rfl, ‹_›⟩
    · cases h

theorem integer_fault (c : List Sst) : integer c ≠ .fault := by
  unfold integer
  repeat' split
  all_goals simp

theorem map_fault {α β : Type} {x : Out α} (f : α → β) (h : x ≠ .fault) : (x.bind fun p => .ok (f p)) ≠ .fault := by
  intro h'
  rcases bind_fault.mp h' with h' | ⟨_, _, h'⟩
  · exact h h'
  · cases h'

theorem safe_eat {c : List Sst} (h : Safe c) : Safe (eatWs c) := safe_suffix (eatWs_suffix c) h

theorem safe_number {s : Sst} {r : List Sst} (h : Safe (s :: r)) (hn : s.is .number = true) : (tokOf s).data ≠ [] := by
  obtain ⟨d, rfl⟩ := is_tok hn
  have := safe_head h
  rw [SafeOne] at this
  exact this.1 rfl

theorem safe_ident {s : Sst} {r : List Sst} (h : Safe (s :: r)) (hn : s.is .ident = true) :
    ∃ c ∈ (tokOf s).data, ¬ (48 ≤ c ∧ c ≤ 57) := by
  obtain ⟨d, rfl⟩ := is_tok hn
  have := safe_head h
  rw [SafeOne] at this
  exact this.2 rfl

theorem afterN_fault {c : List Sst} (h : Safe c) : afterN c ≠ .fault := by
  unfold afterN
  have hw := safe_eat h
  split
  · simp
  · rename_i s r he
    rw [he] at hw
    split
    · rename_i hn
      split
      · rename_i hd
        exact absurd hd (safe_number hw hn)
      · split
        · simp
        · exact integer_fault _
    · split
      · rename_i hd
        split
        · simp
        · rename_i hpm
          simp only
          split
          · exact map_fault _ (integer_fault _)
          · rename_i s' r' he'
            obtain ⟨d, rfl⟩ := is_tok hd
            have hd : d = u "+" ∨ d = u "-" := by
              simp only [tokOf] at hpm
              rcases Classical.em (d = u "+") with h | h
              · exact .inl h
              · rcases Classical.em (d = u "-") with h' | h'
                · exact .inr h'
                · exact absurd ⟨h, h'⟩ hpm
            rw [Safe] at hw
            obtain ⟨t, rfl, ht⟩ := hw.2.2.2.1 (by rcases hd with rfl | rfl; exact .inl rfl; exact .inr rfl) s' r' he'
            split
            · rename_i h0
              exact absurd h0 ht
            · split
              · simp
              · exact map_fault _ (integer_fault _)
      · simp

theorem afterNDash_fault {c : List Sst} (h : Safe c) : afterNDash c ≠ .fault := by
  unfold afterNDash
  have hw := safe_eat h
  split
  · simp
  · rename_i s r he
    rw [he] at hw
    split
    · rename_i hn
      split
      · rename_i hd
        exact absurd hd (safe_number hw hn)
      · split
        · exact integer_fault _
        · simp
    · simp

theorem tailDigits_all {t : Text} (h : tailDigits t = t.length) : ∀ c ∈ t, 48 ≤ c ∧ c ≤ 57 := by
  unfold tailDigits at h
  intro c hc
  have h1 : t.reverse.takeWhile isDigit = t.reverse := by
    apply List.IsPrefix.eq_of_length (List.takeWhile_prefix _)
    simpa using h
  have : c ∈ t.reverse.takeWhile isDigit := by
    rw [h1]
    simpa using hc
  have := List.all_eq_true.mp (List.all_takeWhile (p := isDigit) (l := t.reverse)) c this
  simpa [isDigit] using this

theorem anbIdent_fault {i : Text} {b : Bool} {c : List Sst} (hi : ∃ x ∈ i, ¬ (48 ≤ x ∧ x ≤ 57)) (h : Safe c) :
    anbIdent i b c ≠ .fault := by
  unfold anbIdent
  have hw := safe_eat h
  obtain ⟨x, hx, hn⟩ := hi
  simp only
  split
  · cases hx
  · split
    · simp
    · split
      · repeat' split
        all_goals first
          | exact map_fault _ (afterN_fault hw)
          | exact map_fault _ (afterNDash_fault hw)
          | simp
      · split
        · rename_i hl
          exact absurd (tailDigits_all hl x hx) hn
        · repeat' split
          all_goals simp

theorem anbDimension_fault {i : Text} {b : Bool} {c : List Sst} (h : Safe c) : anbDimension i b c ≠ .fault := by
  unfold anbDimension
  have hw := safe_eat h
  simp only
  split
  · simp
  · repeat' split
    all_goals first
      | exact map_fault _ (afterN_fault hw)
      | exact map_fault _ (afterNDash_fault hw)
      | simp

theorem anb_fault {c : List Sst} (hc : eatWs c ≠ []) (h : Safe c) : anb c ≠ .fault := by
  unfold anb
  have hw := safe_eat h
  simp only
  split
  · contradiction
  · rename_i s r he
    rw [he] at hw
    have hr : Safe r := safe_suffix (List.suffix_cons _ _) hw
    split
    · simp
    · split
      · exact map_fault _ (integer_fault _)
      · split
        · split
          · simp
          · have hr' := safe_suffix (List.suffix_cons _ _) hr
            repeat' split
            all_goals first
              | exact anbIdent_fault (safe_ident hr ‹_›) hr'
              | exact anbDimension_fault hr'
              | simp
        · repeat' split
          all_goals first
            | exact anbIdent_fault (safe_ident hw ‹_›) hr
            | exact anbDimension_fault hr
            | simp

theorem qualified_fault {ns : Namespaces} {d : Option Str} {c : List Sst} (h : Safe c) : qualified ns d c ≠ .fault := by
  unfold qualified
  simp only
  split
  · simp
  · split
    · simp
    · rename_i r hr
      intro hf
      rcases bind_fault.mp hf with hf | ⟨q, _, hf⟩
      · obtain ⟨s, hs, hb⟩ := skipDelim_some hr
        have := safe_suffix (prefixOf_suffix c) h
        rw [hs, bar_eq hb, Safe] at this
        have hne := this.2.1 (.inr (.inr rfl))
        unfold secondName at hf
        split at hf
        · exact hne rfl
        · repeat' split at hf
          all_goals cases hf
      · repeat' split at hf
        all_goals cases hf

theorem attrSel_fault {ns : Namespaces} {c : List Sst} (h : Safe c) : attrSel ns c ≠ .fault := by
  unfold attrSel
  have hw := safe_eat h
  split
  · simp
  · intro hf
    rcases bind_fault.mp hf with hf | ⟨q, hq, hf⟩
    · exact qualified_fault hw hf
    · have h1 := safe_suffix (prefixOf_suffix _) hw
      have h2 := safe_suffix (qualified_suffix' hq) h1
      have h3 := safe_eat h2
      split at hf
      · cases hf
      · rename_i hne
        rcases bind_fault.mp hf with hf | ⟨m, hm, hf⟩
        · unfold attrOp at hf
          split at hf
          · rename_i he
            rw [he] at hne
            exact hne rfl
          · simp only at hf
            repeat' split at hf
            all_goals cases hf
        · rcases bind_fault.mp hf with hf | ⟨v, _, hf⟩
          · unfold attrValue at hf
            split at hf
            · rename_i he
              unfold attrOp at hm
              split at hm
              · cases hm
              · rename_i s r hsr
                rw [hsr] at h3
                split at hm
                · rename_i hd
                  cases hm
                  rw [eq_eq hd, Safe] at h3
                  exact h3.2.2.1 rfl he
                · split at hm
                  · split at hm
                    · cases hm
                    · rename_i r' hr'
                      obtain ⟨s', hs', hb⟩ := skipDelim_some hr'
                      rw [hs', eq_eq hb] at h3
                      have h4 := safe_suffix (List.suffix_cons _ _) h3
                      rw [Safe] at h4
                      apply h4.2.2.1 rfl
                      simp only at hm
                      repeat' split at hm
                      all_goals (cases hm <;> exact he)
                  · cases hm
            · split at hf <;> cases hf
          · rcases bind_fault.mp hf with hf | ⟨v, _, hf⟩
            · unfold attrFlag at hf
              repeat' split at hf
              all_goals cases hf
            · cases hf

/-- On safe texts the mutual functions do not run off. -/
structure Stays (n : Nat) (ns : Namespaces) : Prop where
  parse : ∀ c, Safe c → parse n ns c ≠ .fault
  loop : ∀ s c, Safe c → loop n ns s c ≠ .fault
  elem : ∀ op c, Safe c → elem n ns op c ≠ .fault
  simple : ∀ s r, Safe (s :: r) → simple n ns s r ≠ .fault
  pseudo : ∀ s, SafeOne s → pseudo n ns s ≠ .fault
  pseudoFunc : ∀ x c, Safe c → eatWs c ≠ [] → pseudoFunc n ns x c ≠ .fault
  infixE : ∀ lhs op c, Safe c → infixE n ns lhs op c ≠ .fault
  nfix : ∀ lhs op c, Safe c → nfix n ns lhs op c ≠ .fault
  nfixLoop : ∀ op pre last c, Safe c → nfixLoop n ns op pre last c ≠ .fault

theorem stays (ns : Namespaces) : ∀ n, Stays n ns
  | 0 => by
    refine ⟨?_, ?_, ?_, ?_, ?_, ?_, ?_, ?_, ?_⟩ <;> intros <;>
      simp [parse, loop, elem, simple, pseudo, pseudoFunc, infixE, nfix, nfixLoop]
  | n + 1 => by
    have ih := stays ns n
    have lv := leaves ns n
    refine ⟨fun c h => ?_, fun s c h => ?_, fun op c h => ?_, fun s r h => ?_, fun s h => ?_, fun x c h he => ?_, fun l op c h => ?_,
      fun l op c h => ?_, fun op p l c h => ?_⟩
    · unfold parse
      split
      · simp
      · intro hf
        rcases bind_fault.mp hf with hf | ⟨q, hq, hf⟩
        · exact ih.elem _ _ h hf
        · exact ih.loop _ _ (safe_suffix (lv.elem hq).suffix h) hf
    · unfold loop
      split
      · simp
      · intro hf
        have hp := safe_suffix (peekOp_suffix c) h
        rcases bind_fault.mp hf with hf | ⟨q, hq, hf⟩
        · exact ih.infixE _ _ _ hp hf
        · split at hf
          · cases hf
          · exact ih.loop _ _ (safe_suffix (lv.infixE hq) hp) hf
    · cases c with
      | nil => simp [elem]
      | cons s r =>
        unfold elem
        split
        · exact ih.elem _ _ (safe_suffix (List.suffix_cons _ _) h)
        · intro hf
          rcases bind_fault.mp hf with hf | ⟨q, hq, hf⟩
          · exact ih.simple _ _ h hf
          · have h1 := safe_suffix ((simple_suffix hq).trans (List.suffix_cons _ _)) h
            have h2 := safe_suffix (peekOp_suffix q.2) h1
            repeat' split at hf
            · cases hf
            · exact ih.infixE _ _ _ h2 hf
            · cases hf
    · unfold simple
      rw [Safe] at h
      obtain ⟨hs, hne, h3, h4, hr⟩ := h
      have hc : Safe (s :: r) := by rw [Safe]; exact ⟨hs, hne, h3, h4, hr⟩
      clear h3 h4
      split
      · rename_i t
        split
        · simp
        · exact map_fault _ (qualified_fault hc)
        · rename_i ht
          split
          · rename_i hd
            split
            · exact absurd rfl (hne (.inl (by cases t; simp only at ht hd; subst ht hd; rfl)))
            · simp
          · split
            · exact map_fault _ (qualified_fault hc)
            · simp
        · rename_i ht
          split
          · exact absurd rfl (hne (.inr (.inl (by simp [Sst.is, ht]))))
          · rename_i s' r'
            split
            · split
              · simp
              · rename_i s'' r''
                exact map_fault _ (ih.pseudo _ (safe_head (safe_suffix (List.suffix_cons _ _) hr)))
            · exact map_fault _ (ih.pseudo _ (safe_head hr))
        · simp
      · rw [SafeOne] at hs
        exact map_fault _ (attrSel_fault hs)
      · simp
    · unfold pseudo
      split
      · simp
      · rename_i t content
        rw [SafeOne] at h
        split
        · exact map_fault _ (ih.parse _ h.1)
        · rename_i hn
          refine ih.pseudoFunc _ _ h.1 (h.2.resolve_left ?_)
          rintro ⟨ht, hk, _⟩
          apply hn
          simp only [Tok.same, eqCi, ht, Bool.and_eq_true, beq_iff_eq, true_and]
          have : lower = Spec.low := by funext c; rfl
          rw [this, hk]
          decide
      · simp
    · unfold pseudoFunc
      intro hf
      rcases bind_fault.mp hf with hf | ⟨q, hq, hf⟩
      · exact anb_fault he h hf
      · have h1 := safe_suffix (anb_suffix hq) h
        have h2 := safe_eat h1
        split at hf
        · cases hf
        · rename_i s r he
          rw [he] at h2
          repeat' split at hf
          · cases hf
          · exact map_fault _ (ih.parse _ (safe_suffix (List.suffix_cons _ _) h2)) hf
          · cases hf
    · unfold infixE
      split
      · exact map_fault _ (ih.elem _ _ h)
      · split
        · simp
        · exact ih.nfix _ _ _ h
    · unfold nfix
      intro hf
      rcases bind_fault.mp hf with hf | ⟨q, hq, hf⟩
      · exact ih.elem _ _ h hf
      · exact map_fault _ (ih.nfixLoop _ _ _ _ (safe_suffix (lv.elem hq).suffix h)) hf
    · unfold nfixLoop
      split
      · simp
      · have hp := safe_suffix (peekOp_suffix c) h
        simp only
        intro hf
        split at hf
        · cases hf
        · split at hf
          · rcases bind_fault.mp hf with hf | ⟨q, hq, hf⟩
            · exact ih.elem _ _ hp hf
            · exact ih.nfixLoop _ _ _ _ (safe_suffix (lv.elem hq).suffix hp) hf
          · split at hf
            · cases hf
            · split at hf
              · rcases bind_fault.mp hf with hf | ⟨q, hq, hf⟩
                · exact ih.nfix _ _ _ hp hf
                · exact ih.nfixLoop _ _ _ _ (safe_suffix (lv.nfix hq).suffix hp) hf
              · rcases bind_fault.mp hf with hf | ⟨q, hq, hf⟩
                · exact ih.infixE _ _ _ hp hf
                · exact ih.nfixLoop _ _ _ _ (safe_suffix ((skipTwo_suffix _).trans (lv.infixE hq)) hp) hf

end Verif.SelParse
