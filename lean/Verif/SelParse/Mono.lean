import Verif.SelParse.Ends
/-!
# Reading selectors: more fuel changes nothing
-/
namespace Verif.SelParse
open Verif.Css (Sst Tok TT Text u eatWs)
open Verif.Selector (Str Selector QSel NsPat AnB AttrSel AttrMatch Comb)

/-- What runs out of fuel may turn into anything. -/
def Under {α : Type} (x y : Out α) : Prop := x = .fuel ∨ x = y

theorem Under.refl {α : Type} (x : Out α) : Under x x := .inr rfl

theorem Under.bind {α β : Type} {x y : Out α} {f g : α → Out β} (h : Under x y) (h' : ∀ a, Under (f a) (g a)) :
    Under (x.bind f) (y.bind g) := by
  rcases h with rfl | rfl
  · exact .inl rfl
  · cases x <;> simp [Out.bind, Under.refl]
    exact h' _

/-- One more step of fuel. -/
structure Grows (n : Nat) (ns : Namespaces) : Prop where
  parse : ∀ c, Under (parse n ns c) (parse (n + 1) ns c)
  loop : ∀ s c, Under (loop n ns s c) (loop (n + 1) ns s c)
  elem : ∀ op c, Under (elem n ns op c) (elem (n + 1) ns op c)
  simple : ∀ s r, Under (simple n ns s r) (simple (n + 1) ns s r)
  pseudo : ∀ s, Under (pseudo n ns s) (pseudo (n + 1) ns s)
  pseudoFunc : ∀ x c, Under (pseudoFunc n ns x c) (pseudoFunc (n + 1) ns x c)
  infixE : ∀ lhs op c, Under (infixE n ns lhs op c) (infixE (n + 1) ns lhs op c)
  nfix : ∀ lhs op c, Under (nfix n ns lhs op c) (nfix (n + 1) ns lhs op c)
  nfixLoop : ∀ op pre last c, Under (nfixLoop n ns op pre last c) (nfixLoop (n + 1) ns op pre last c)

theorem grows (ns : Namespaces) : ∀ n, Grows n ns
  | 0 => by
    refine ⟨?_, ?_, ?_, ?_, ?_, ?_, ?_, ?_, ?_⟩ <;> intros <;> left <;>
      simp [parse, loop, elem, simple, pseudo, pseudoFunc, infixE, nfix, nfixLoop]
  | n + 1 => by
    have ih := grows ns n
    refine ⟨fun c => ?_, fun s c => ?_, fun op c => ?_, fun s r => ?_, fun s => ?_, fun x c => ?_, fun l op c => ?_,
      fun l op c => ?_, fun op p l c => ?_⟩
    · rw [parse, parse]
      split
      · exact .refl _
      · exact (ih.elem _ _).bind fun _ => ih.loop _ _
    · rw [loop, loop]
      split
      · exact .refl _
      · refine (ih.infixE _ _ _).bind fun _ => ?_
        split
        · exact .refl _
        · exact ih.loop _ _
    · cases c with
      | nil => simp only [elem]; exact .refl _
      | cons s r =>
        rw [elem, elem]
        split
        · exact ih.elem _ _
        · refine (ih.simple _ _).bind fun _ => ?_
          repeat' split
          · exact .refl _
          · exact ih.infixE _ _ _
          · exact .refl _
    · unfold simple
      repeat' split
      all_goals first
        | exact .refl _
        | exact (ih.pseudo _).bind fun _ => .refl _
    · unfold pseudo
      repeat' split
      all_goals first
        | exact .refl _
        | exact (ih.parse _).bind fun _ => .refl _
        | exact ih.pseudoFunc _ _
    · unfold pseudoFunc
      refine Under.bind (.refl _) fun _ => ?_
      repeat' split
      all_goals first
        | exact .refl _
        | exact (ih.parse _).bind fun _ => .refl _
    · unfold infixE
      repeat' split
      all_goals first
        | exact .refl _
        | exact (ih.elem _ _).bind fun _ => .refl _
        | exact ih.nfix _ _ _
    · rw [nfix, nfix]
      exact (ih.elem _ _).bind fun _ => (ih.nfixLoop _ _ _ _).bind fun _ => .refl _
    · rw [nfixLoop, nfixLoop]
      simp only
      repeat' split
      all_goals first
        | exact .refl _
        | exact (ih.elem _ _).bind fun _ => ih.nfixLoop _ _ _ _
        | exact (ih.nfix _ _ _).bind fun _ => ih.nfixLoop _ _ _ _
        | exact (ih.infixE _ _ _).bind fun _ => ih.nfixLoop _ _ _ _

theorem parse_mono {n m : Nat} {ns : Namespaces} {c : List Sst} (h : n ≤ m) (hf : parse n ns c ≠ .fuel) :
    parse m ns c = parse n ns c := by
  induction h with
  | refl => rfl
  | step _ ih =>
    rw [← ih]
    rcases (grows ns _).parse c with h | h
    · rw [ih] at h; exact absurd h hf
    · exact h.symm

/-- `Selector::parse`: with this fuel it never runs out (`enough`). -/
noncomputable def read (ns : Namespaces) (c : List Sst) : Out Selector := parse (8 * sizeOf c + 1) ns c

theorem read_fuel (ns : Namespaces) (c : List Sst) : read ns c ≠ .fuel := (enough ns _).parse c (Nat.le_refl _)

theorem read_of_parse {n : Nat} {ns : Namespaces} {c : List Sst} {v : Out Selector} (h : parse n ns c = v) (hv : v ≠ .fuel) :
    read ns c = v := by
  have h1 := parse_mono (Nat.le_max_left n (8 * sizeOf c + 1)) (by rw [h]; exact hv)
  have h2 := parse_mono (Nat.le_max_right n (8 * sizeOf c + 1)) (read_fuel ns c)
  rw [h] at h1
  rw [← h1, h2]
  rfl

end Verif.SelParse
