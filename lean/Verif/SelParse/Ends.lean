import Verif.SelParse.Spec
/-!
# Reading selectors ends: what every step leaves, and how much fuel it takes
-/
namespace Verif.SelParse
open Verif.Css (Sst Tok TT Text u eatWs)
open Verif.Selector (Str Selector QSel NsPat AnB AttrSel AttrMatch Comb)

theorem bind_ok {α β : Type} {x : Out α} {f : α → Out β} {b : β} : x.bind f = .ok b ↔ ∃ a, x = .ok a ∧ f a = .ok b := by
  cases x <;> simp [Out.bind]

theorem bind_fuel {α β : Type} {x : Out α} {f : α → Out β} :
    x.bind f = .fuel ↔ x = .fuel ∨ ∃ a, x = .ok a ∧ f a = .fuel := by
  cases x <;> simp [Out.bind]

theorem bind_fault {α β : Type} {x : Out α} {f : α → Out β} :
    x.bind f = .fault ↔ x = .fault ∨ ∃ a, x = .ok a ∧ f a = .fault := by
  cases x <;> simp [Out.bind]

/-! ## What is left -/

theorem eatWs_suffix (c : List Sst) : eatWs c <:+ c := by
  obtain ⟨w, _, h⟩ := Verif.Css.eatWs_split c
  exact ⟨w, h.symm⟩

theorem skipLone_suffix (c : List Sst) : skipLone c <:+ c := by
  unfold skipLone
  split
  · split
    · exact List.suffix_cons _ _
    · exact List.suffix_refl _
  · exact List.suffix_refl _

theorem skipTwo_suffix (c : List Sst) : skipTwo c <:+ c := by
  unfold skipTwo
  split
  · split
    · exact List.suffix_cons _ _
    · exact List.suffix_refl _
  · exact List.suffix_refl _

theorem peekOp_suffix : ∀ c : List Sst, (peekOp c).2 <:+ c
  | [] => by simp [peekOp]
  | .tok t :: r => by
    unfold peekOp
    split
    · exact List.suffix_cons _ _
    · split
      · exact List.nil_suffix
      · split
        · exact List.suffix_cons _ _
        · exact (skipLone_suffix _).trans ((peekOp_suffix _).trans (List.suffix_cons _ _))
    · repeat' split
      all_goals first | exact List.suffix_cons _ _ | exact List.suffix_refl _
    · exact List.suffix_refl _
  | .rule .. :: r => by unfold peekOp; exact List.suffix_refl _
  | .func .. :: r => by unfold peekOp; exact List.suffix_refl _
  | .decl .. :: r => by unfold peekOp; exact List.suffix_refl _
  | .block .. :: r => by unfold peekOp; exact List.suffix_refl _

theorem skipDelim_suffix {d : String} {c r : List Sst} (h : skipDelim d c = some r) : r <:+ c := by
  unfold skipDelim at h
  split at h
  · cases h
  · split at h
    · cases h; exact List.suffix_cons _ _
    · cases h

theorem prefixOf_suffix (c : List Sst) : (prefixOf c).2 <:+ c := by
  unfold prefixOf
  repeat' split
  all_goals first | exact List.suffix_cons _ _ | exact List.suffix_refl _

theorem secondName_suffix {c : List Sst} {p : Option Str × List Sst} (h : secondName c = .ok p) : p.2 <:+ c := by
  unfold secondName at h
  split at h
  · cases h
  · repeat' split at h
    all_goals cases h; first | exact List.suffix_cons _ _ | exact List.suffix_refl _

theorem qualified_suffix' {ns : Namespaces} {d : Option Str} {c : List Sst} {p : QSel × List Sst}
    (h : qualified ns d c = .ok p) : p.2 <:+ (prefixOf c).2 := by
  unfold qualified at h
  split at h
  · cases h
  · simp only at h
    split at h
    · cases h; exact List.suffix_refl _
    · rename_i r hr
      obtain ⟨q, hq, h⟩ := bind_ok.mp h
      have := (secondName_suffix hq).trans (skipDelim_suffix hr)
      split at h
      · cases h; exact this
      · cases h; exact this
      · split at h
        · cases h
        · cases h; exact this

/-- When a name or a star is there it is taken. -/
theorem qualified_suffix {ns : Namespaces} {d : Option Str} {s : Sst} {r : List Sst} {p : QSel × List Sst}
    (hs : (tokOf s).type = .ident ∨ isDelim "*" s = true) (h : qualified ns d (s :: r) = .ok p) : p.2 <:+ r := by
  have := qualified_suffix' h
  unfold prefixOf at this
  simp only at this
  split at this
  · exact this
  · rw [if_pos (hs.resolve_left ‹_›)] at this
    exact this

/-- Something was taken. -/
def Less (r c : List Sst) : Prop := ∃ x l, c = x :: l ∧ r <:+ l

theorem Less.suffix {r c : List Sst} (h : Less r c) : r <:+ c := by
  obtain ⟨x, l, rfl, h⟩ := h
  exact h.trans (List.suffix_cons _ _)

theorem Less.of_suffix {r c d : List Sst} (h : Less r c) (h' : c <:+ d) : Less r d := by
  obtain ⟨x, l, rfl, h⟩ := h
  obtain ⟨w, rfl⟩ := h'
  cases w with
  | nil => exact ⟨x, l, rfl, h⟩
  | cons y w => exact ⟨y, w ++ x :: l, rfl, (h.trans (List.suffix_cons _ _)).trans (List.suffix_append _ _)⟩

theorem Less.suffix_left {r c d : List Sst} (h : r <:+ c) (h' : Less c d) : Less r d := by
  obtain ⟨x, l, rfl, h'⟩ := h'
  exact ⟨x, l, rfl, h.trans h'⟩

theorem star_delim {t : Tok} (h : t.type = .delim) (hd : t.data = u "*") : isDelim "*" (.tok t) = true := by
  cases t
  simp only at h hd
  subst h hd
  decide

theorem simple_suffix {n : Nat} {ns : Namespaces} {s : Sst} {r : List Sst} {p : Selector × List Sst}
    (h : simple n ns s r = .ok p) : p.2 <:+ r := by
  cases n with
  | zero => simp [simple] at h
  | succ n =>
    unfold simple at h
    split at h
    · split at h
      · cases h; exact List.suffix_refl _
      · rename_i ht
        obtain ⟨q, hq, h⟩ := bind_ok.mp h
        cases h
        exact qualified_suffix (s := .tok _) (.inl ht) hq
      · rename_i ht
        split at h
        · split at h
          · cases h
          · cases h; exact List.suffix_cons _ _
        · split at h
          · rename_i hd
            obtain ⟨q, hq, h⟩ := bind_ok.mp h
            cases h
            exact qualified_suffix (s := .tok _) (.inr (star_delim ht hd)) hq
          · cases h; exact List.suffix_refl _
      · split at h
        · cases h
        · split at h
          · split at h
            · cases h
            · obtain ⟨q, hq, h⟩ := bind_ok.mp h
              cases h
              exact (List.suffix_cons _ _).trans (List.suffix_cons _ _)
          · obtain ⟨q, hq, h⟩ := bind_ok.mp h
            cases h
            exact List.suffix_cons _ _
      · cases h
    · obtain ⟨q, hq, h⟩ := bind_ok.mp h
      cases h
      exact List.suffix_refl _
    · cases h

/-- What the mutual functions leave, with this fuel. -/
structure Leaves (n : Nat) (ns : Namespaces) : Prop where
  elem : ∀ {op c p}, elem n ns op c = .ok p → Less p.2 c
  infixE : ∀ {lhs op c p}, infixE n ns lhs op c = .ok p → p.2 <:+ c
  nfix : ∀ {lhs op c p}, nfix n ns lhs op c = .ok p → Less p.2 c
  nfixLoop : ∀ {op pre last c p}, nfixLoop n ns op pre last c = .ok p → p.2 <:+ c

theorem leaves (ns : Namespaces) : ∀ n, Leaves n ns
  | 0 => ⟨by simp [elem], by simp [infixE], by simp [nfix], by simp [nfixLoop]⟩
  | n + 1 => by
    have ih := leaves ns n
    refine ⟨fun {op c p} h => ?_, fun {lhs op c p} h => ?_, fun {lhs op c p} h => ?_, fun {op pre last c p} h => ?_⟩
    · cases c with
      | nil => simp [elem] at h
      | cons s r =>
        unfold elem at h
        split at h
        · exact (ih.elem h).of_suffix (List.suffix_cons _ _)
        · obtain ⟨q, hq, h⟩ := bind_ok.mp h
          have h1 := simple_suffix hq
          repeat' split at h
          · cases h; exact ⟨s, r, rfl, h1⟩
          · exact ⟨s, r, rfl, (ih.infixE h).trans ((peekOp_suffix _).trans h1)⟩
          · cases h; exact ⟨s, r, rfl, h1⟩
    · unfold infixE at h
      split at h
      · obtain ⟨q, hq, h⟩ := bind_ok.mp h
        cases h
        exact (ih.elem hq).suffix
      · split at h
        · cases h; exact List.suffix_refl _
        · exact (ih.nfix h).suffix
    · unfold nfix at h
      obtain ⟨q, hq, h⟩ := bind_ok.mp h
      obtain ⟨q', hq', h⟩ := bind_ok.mp h
      cases h
      exact (ih.elem hq).suffix_left (ih.nfixLoop hq')
    · unfold nfixLoop at h
      split at h
      · cases h; exact List.suffix_refl _
      · simp only at h
        have hp := peekOp_suffix c
        split at h
        · cases h; exact hp
        · split at h
          · obtain ⟨q, hq, h⟩ := bind_ok.mp h
            exact (ih.nfixLoop h).trans ((ih.elem hq).suffix.trans hp)
          · split at h
            · cases h; exact List.suffix_refl _
            · split at h
              · obtain ⟨q, hq, h⟩ := bind_ok.mp h
                exact (ih.nfixLoop h).trans ((ih.nfix hq).suffix.trans hp)
              · obtain ⟨q, hq, h⟩ := bind_ok.mp h
                exact (ih.nfixLoop h).trans ((skipTwo_suffix _).trans ((ih.infixE hq).trans hp))

/-! ## Fuel -/

theorem size_suffix {r c : List Sst} (h : r <:+ c) : sizeOf r ≤ sizeOf c := by
  obtain ⟨w, rfl⟩ := h
  induction w with
  | nil => exact Nat.le_refl _
  | cons x w ih =>
    simp only [List.cons_append, List.cons.sizeOf_spec]
    omega

theorem size_less {r c : List Sst} (h : Less r c) : sizeOf r < sizeOf c := by
  obtain ⟨x, l, rfl, h⟩ := h
  have := size_suffix h
  simp only [List.cons.sizeOf_spec]
  omega

theorem size_pos (c : List Sst) : 1 ≤ sizeOf c := by
  cases c <;> simp <;> omega

/-- A suffix that is not as long is smaller. -/
theorem less_of_length {r c : List Sst} (h : r <:+ c) (hl : r.length ≠ c.length) : Less r c := by
  obtain ⟨w, rfl⟩ := h
  cases w with
  | nil => exact absurd rfl hl
  | cons x w => exact ⟨x, w ++ r, rfl, List.suffix_append _ _⟩

theorem integer_fuel (c : List Sst) : integer c ≠ .fuel := by
  unfold integer
  repeat' split
  all_goals simp

theorem afterN_fuel (c : List Sst) : afterN c ≠ .fuel := by
  unfold afterN
  simp only
  repeat' split
  all_goals try simp
  all_goals first
    | exact integer_fuel _
    | (intro h; rcases bind_fuel.mp h with h | ⟨_, _, h⟩; exact integer_fuel _ h; cases h)

theorem afterNDash_fuel (c : List Sst) : afterNDash c ≠ .fuel := by
  unfold afterNDash
  repeat' split
  all_goals try simp
  all_goals exact integer_fuel _

theorem map_fuel {α β : Type} {x : Out α} (f : α → β) (h : x ≠ .fuel) : (x.bind fun p => .ok (f p)) ≠ .fuel := by
  intro h'
  rcases bind_fuel.mp h' with h' | ⟨_, _, h'⟩
  · exact h h'
  · cases h'

theorem anbIdent_fuel (i : Text) (b : Bool) (c : List Sst) : anbIdent i b c ≠ .fuel := by
  unfold anbIdent
  simp only
  repeat' split
  all_goals try simp
  all_goals first | exact map_fuel _ (afterN_fuel _) | exact map_fuel _ (afterNDash_fuel _)

theorem anbDimension_fuel (i : Text) (b : Bool) (c : List Sst) : anbDimension i b c ≠ .fuel := by
  unfold anbDimension
  simp only
  split
  · simp
  · repeat' split
    all_goals try simp
    all_goals first | exact map_fuel _ (afterN_fuel _) | exact map_fuel _ (afterNDash_fuel _)

theorem anb_fuel (c : List Sst) : anb c ≠ .fuel := by
  unfold anb
  simp only
  repeat' split
  all_goals try simp
  all_goals first
    | exact map_fuel _ (integer_fuel _)
    | exact anbIdent_fuel _ _ _
    | exact anbDimension_fuel _ _ _

theorem secondName_fuel (c : List Sst) : secondName c ≠ .fuel := by
  unfold secondName
  repeat' split
  all_goals simp

theorem qualified_fuel (ns : Namespaces) (d : Option Str) (c : List Sst) : qualified ns d c ≠ .fuel := by
  unfold qualified
  simp only
  split
  · simp
  · split
    · simp
    · intro h
      rcases bind_fuel.mp h with h | ⟨q, _, h⟩
      · exact secondName_fuel _ h
      · repeat' split at h
        all_goals cases h

theorem attrSel_fuel (ns : Namespaces) (c : List Sst) : attrSel ns c ≠ .fuel := by
  unfold attrSel
  split
  · simp
  · intro h
    rcases bind_fuel.mp h with h | ⟨q, _, h⟩
    · exact qualified_fuel _ _ _ h
    · split at h
      · cases h
      · rcases bind_fuel.mp h with h | ⟨m, _, h⟩
        · unfold attrOp at h
          simp only at h
          repeat' split at h
          all_goals cases h
        · rcases bind_fuel.mp h with h | ⟨v, _, h⟩
          · unfold attrValue at h
            repeat' split at h
            all_goals cases h
          · rcases bind_fuel.mp h with h | ⟨v, _, h⟩
            · unfold attrFlag at h
              repeat' split at h
              all_goals cases h
            · cases h

theorem anb_suffix {c : List Sst} {p : AnB × List Sst} (h : anb c = .ok p) : p.2 <:+ c := by
  have hint : ∀ {c : List Sst} {p : Int × List Sst}, integer c = .ok p → p.2 <:+ c := by
    intro c p h
    unfold integer at h
    split at h
    · cases h
    · repeat' split at h
      all_goals cases h
      exact List.suffix_cons _ _
  have hN : ∀ {c : List Sst} {p : Int × List Sst}, afterN c = .ok p → p.2 <:+ c := by
    intro c p h
    unfold afterN at h
    simp only at h
    have hw := eatWs_suffix c
    split at h
    · cases h; exact List.nil_suffix
    · rename_i s r he
      rw [he] at hw
      split at h
      · split at h
        · cases h
        · split at h
          · cases h
          · exact (hint h).trans hw
      · split at h
        · split at h
          · cases h
          · split at h
            · obtain ⟨q, hq, h⟩ := bind_ok.mp h
              simp [integer] at hq
            · rename_i s' r' he'
              have hw' := eatWs_suffix r
              rw [he'] at hw'
              split at h
              · cases h
              · split at h
                · cases h
                · obtain ⟨q, hq, h⟩ := bind_ok.mp h
                  cases h
                  exact (hint hq).trans (hw'.trans ((List.suffix_cons _ _).trans hw))
        · cases h
  have hD : ∀ {c : List Sst} {p : Int × List Sst}, afterNDash c = .ok p → p.2 <:+ c := by
    intro c p h
    unfold afterNDash at h
    have hw := eatWs_suffix c
    split at h
    · cases h
    · rename_i s r he
      rw [he] at hw
      repeat' split at h
      all_goals first | cases h; done | exact (hint h).trans hw
  have hI : ∀ {i : Text} {b : Bool} {c : List Sst} {p : AnB × List Sst}, anbIdent i b c = .ok p → p.2 <:+ c := by
    intro i b c p h
    unfold anbIdent at h
    simp only at h
    have hw := eatWs_suffix c
    repeat' split at h
    all_goals first
      | (cases h; done)
      | (cases h; exact hw)
      | (obtain ⟨q, hq, h⟩ := bind_ok.mp h; cases h; first | exact (hN hq).trans hw | exact (hD hq).trans hw)
  have hDim : ∀ {i : Text} {b : Bool} {c : List Sst} {p : AnB × List Sst}, anbDimension i b c = .ok p → p.2 <:+ c := by
    intro i b c p h
    unfold anbDimension at h
    simp only at h
    have hw := eatWs_suffix c
    split at h
    · cases h
    · repeat' split at h
      all_goals first
        | (cases h; done)
        | (cases h; exact hw)
        | (obtain ⟨q, hq, h⟩ := bind_ok.mp h; cases h; first | exact (hN hq).trans hw | exact (hD hq).trans hw)
  unfold anb at h
  simp only at h
  have hw := eatWs_suffix c
  split at h
  · cases h
  · rename_i s r he
    rw [he] at hw
    have hr : r <:+ c := (List.suffix_cons _ _).trans hw
    split at h
    · cases h; exact hr
    · split at h
      · obtain ⟨q, hq, h⟩ := bind_ok.mp h
        cases h
        exact (hint hq).trans hw
      · split at h
        · split at h
          · cases h
          · have hr' := (List.suffix_cons _ _).trans hr
            repeat' split at h
            all_goals first
              | (cases h; done)
              | exact (hI h).trans hr'
              | exact (hDim h).trans hr'
        · repeat' split at h
          all_goals first
            | (cases h; done)
            | exact (hI h).trans hr
            | exact (hDim h).trans hr

/-- With this fuel the mutual functions do not run out of it. -/
structure Enough (n : Nat) (ns : Namespaces) : Prop where
  parse : ∀ c, 8 * sizeOf c + 1 ≤ n → parse n ns c ≠ .fuel
  loop : ∀ s c, 8 * sizeOf c + 3 ≤ n → loop n ns s c ≠ .fuel
  elem : ∀ op c, 8 * sizeOf c ≤ n → elem n ns op c ≠ .fuel
  simple : ∀ s r, 8 * sizeOf (s :: r) ≤ n + 1 → simple n ns s r ≠ .fuel
  pseudo : ∀ s, 8 * sizeOf s ≤ n + 3 → pseudo n ns s ≠ .fuel
  pseudoFunc : ∀ x c, 8 * sizeOf c + 2 ≤ n → pseudoFunc n ns x c ≠ .fuel
  infixE : ∀ lhs op c, 8 * sizeOf c + 2 ≤ n → infixE n ns lhs op c ≠ .fuel
  nfix : ∀ lhs op c, 8 * sizeOf c + 1 ≤ n → nfix n ns lhs op c ≠ .fuel
  nfixLoop : ∀ op pre last c, 8 * sizeOf c + 3 ≤ n → nfixLoop n ns op pre last c ≠ .fuel

theorem enough (ns : Namespaces) : ∀ n, Enough n ns
  | 0 => by
    refine ⟨fun c h => ?_, fun s c h => ?_, fun op c h => ?_, fun s r h => ?_, fun s h => ?_, fun x c h => ?_, fun l op c h => ?_, fun l op c h => ?_,
      fun op p l c h => ?_⟩
    all_goals first
      | (have := size_pos c; omega)
      | (have := size_pos (s :: r); simp only [List.cons.sizeOf_spec] at *; omega)
      | (cases s <;> simp at h <;> omega)
  | n + 1 => by
    have ih := enough ns n
    have lv := leaves ns n
    refine ⟨fun c h => ?_, fun s c h => ?_, fun op c h => ?_, fun s r h => ?_, fun s h => ?_, fun x c h => ?_, fun l op c h => ?_, fun l op c h => ?_,
      fun op p l c h => ?_⟩
    · unfold parse
      split
      · simp
      · intro hf
        rcases bind_fuel.mp hf with hf | ⟨q, hq, hf⟩
        · exact ih.elem _ _ (by omega) hf
        · have := size_less (lv.elem hq)
          exact ih.loop _ _ (by omega) hf
    · unfold loop
      split
      · simp
      · rename_i hne
        intro hf
        have hp := size_suffix (peekOp_suffix c)
        rcases bind_fuel.mp hf with hf | ⟨q, hq, hf⟩
        · exact ih.infixE _ _ _ (by omega) hf
        · split at hf
          · cases hf
          · rename_i hn
            have hs := (lv.infixE hq).trans (peekOp_suffix c)
            have : Less q.2 c := by
              apply less_of_length hs
              intro hl
              apply hn
              refine ⟨?_, hl⟩
              intro he
              apply hne
              simp only [List.isEmpty_iff] at he ⊢
              rw [he] at hl
              simpa using hl.symm
            have := size_less this
            exact ih.loop _ _ (by omega) hf
    · cases c with
      | nil => simp [elem]
      | cons s r =>
        have hsz : sizeOf (s :: r) = 1 + sizeOf s + sizeOf r := by simp
        unfold elem
        split
        · exact ih.elem _ _ (by omega)
        · intro hf
          rcases bind_fuel.mp hf with hf | ⟨q, hq, hf⟩
          · exact ih.simple _ _ (by omega) hf
          · have h1 := size_suffix (simple_suffix hq)
            have h2 := size_suffix (peekOp_suffix q.2)
            repeat' split at hf
            · cases hf
            · exact ih.infixE _ _ _ (by omega) hf
            · cases hf
    · have hsz : sizeOf (s :: r) = 1 + sizeOf s + sizeOf r := by simp
      unfold simple
      split
      · split
        · simp
        · exact map_fuel _ (qualified_fuel _ _ _)
        · split
          · split <;> simp
          · split
            · exact map_fuel _ (qualified_fuel _ _ _)
            · simp
        · split
          · simp
          · rename_i s' r'
            have : sizeOf (s' :: r') = 1 + sizeOf s' + sizeOf r' := by simp
            split
            · split
              · simp
              · rename_i s'' r''
                have : sizeOf (s'' :: r'') = 1 + sizeOf s'' + sizeOf r'' := by simp
                exact map_fuel _ (ih.pseudo _ (by omega))
            · exact map_fuel _ (ih.pseudo _ (by omega))
        · simp
      · exact map_fuel _ (attrSel_fuel _ _)
      · simp
    · unfold pseudo
      split
      · simp
      · rename_i t content
        have : sizeOf (Sst.func t content) = 1 + sizeOf t + sizeOf content := by simp
        have : 1 ≤ sizeOf t := by cases t; simp; omega
        split
        · exact map_fuel _ (ih.parse _ (by omega))
        · exact ih.pseudoFunc _ _ (by omega)
      · simp
    · unfold pseudoFunc
      intro hf
      rcases bind_fuel.mp hf with hf | ⟨q, hq, hf⟩
      · exact anb_fuel _ hf
      · have h1 := anb_suffix hq
        have h2 := eatWs_suffix q.2
        split at hf
        · cases hf
        · rename_i s r he
          rw [he] at h2
          have := size_suffix (h2.trans h1)
          simp only [List.cons.sizeOf_spec] at this
          repeat' split at hf
          · cases hf
          · exact map_fuel _ (ih.parse _ (by omega)) hf
          · cases hf
    · unfold infixE
      split
      · exact map_fuel _ (ih.elem _ _ (by omega))
      · split
        · simp
        · exact ih.nfix _ _ _ (by omega)
    · unfold nfix
      intro hf
      rcases bind_fuel.mp hf with hf | ⟨q, hq, hf⟩
      · exact ih.elem _ _ (by omega) hf
      · have := size_less (lv.elem hq)
        exact map_fuel _ (ih.nfixLoop _ _ _ _ (by omega)) hf
    · unfold nfixLoop
      split
      · simp
      · have hp := size_suffix (peekOp_suffix c)
        simp only
        intro hf
        split at hf
        · cases hf
        · split at hf
          · rcases bind_fuel.mp hf with hf | ⟨q, hq, hf⟩
            · exact ih.elem _ _ (by omega) hf
            · have := size_less (lv.elem hq)
              exact ih.nfixLoop _ _ _ _ (by omega) hf
          · split at hf
            · cases hf
            · split at hf
              · rcases bind_fuel.mp hf with hf | ⟨q, hq, hf⟩
                · exact ih.nfix _ _ _ (by omega) hf
                · have := size_less (lv.nfix hq)
                  exact ih.nfixLoop _ _ _ _ (by omega) hf
              · rename_i hn1 hn2 hn3 hn4
                rcases bind_fuel.mp hf with hf | ⟨q, hq, hf⟩
                · exact ih.infixE _ _ _ (by omega) hf
                · have hlt : sizeOf q.2 < sizeOf (peekOp c).2 := by
                    cases n with
                    | zero => simp [infixE] at hq
                    | succ n =>
                      unfold infixE at hq
                      split at hq
                      · obtain ⟨q', hq', hq⟩ := bind_ok.mp hq
                        cases hq
                        exact size_less (r := q'.2) ((leaves ns n).elem hq')
                      · split at hq
                        · contradiction
                        · exact size_less ((leaves ns n).nfix hq)
                  have := size_suffix (skipTwo_suffix q.2)
                  exact ih.nfixLoop _ _ _ _ (by omega) hf

end Verif.SelParse
