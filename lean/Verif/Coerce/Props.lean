import Verif.Coerce.Spec
import Verif.Script.Props
/-!
# Properties C255 and C256: objects as primitive values, and exceptions
-/
namespace Verif.Coerce
open Verif.Script (Value Key Heap Out Code Chain Found Reach get call getFrom Prop' Slot step)

theorem from_data {code : Code} {h : Heap} {p : Prop'} {v r : Value} (hp : p.slot = .data v) : getFrom code h p.desc r = (h, .ok v) := by
  simp [getFrom, Prop'.desc, hp, Verif.Script.Desc.isData]

theorem method_get {code : Code} {h : Heap} {o : Nat} {n : String} {m : Option Nat} (hm : Method h o n m) :
    ∃ k, ∀ fuel, k ≤ fuel → ∃ v, get code h (.str n) (.obj o) fuel o = (h, .ok v) ∧
      (isCallable h v = m.isSome) ∧ ∀ f, m = some f → v = .obj f := by
  cases hm with
  | @function c r p f hc hf hp hx =>
    exact ⟨c.length, fun fuel hl => ⟨.obj f, by rw [Verif.Script.get_found hc hf hl, from_data hp], hx, fun f' h' => by cases h'; rfl⟩⟩
  | @absent c hc hn =>
    exact ⟨c.length, fun fuel hl => ⟨.undefined, Verif.Script.get_absent hc hn hl, rfl, nofun⟩⟩
  | @noObject c r p v hc hf hp hv =>
    refine ⟨c.length, fun fuel hl => ⟨v, by rw [Verif.Script.get_found hc hf hl, from_data hp], ?_, nofun⟩⟩
    cases v with
    | obj f => exact absurd rfl (hv f)
    | _ => rfl
  | @noFunction c r p f hc hf hp hx =>
    exact ⟨c.length, fun fuel hl => ⟨.obj f, by rw [Verif.Script.get_found hc hf hl, from_data hp], hx, nofun⟩⟩

theorem call_function {code : Code} {h : Heap} {o f : Nat} (hx : isCallable h (.obj f) = true) :
    call code h (.obj f) (.obj o) [] = code f (.obj o) [] h := by
  have : (h.at f).callable = true := hx
  simp [call, this]

theorem no_object {v : Value} (hv : ∀ x, v ≠ .obj x) : ¬ isObject v = true := by
  cases v with
  | obj x => exact absurd rfl (hv x)
  | _ => exact nofun

theorem gives_names {code : Code} {o : Nat} {ns : List String} {h h' : Heap} {r : Out Value} (hg : Gives code o ns h h' r) :
    ∃ k, ∀ fuel, k ≤ fuel → tryNames code fuel o ns h = (h', r) := by
  induction hg with
  | none => exact ⟨0, fun _ _ => rfl⟩
  | skip hm _ ih =>
    obtain ⟨k, hk⟩ := method_get (code := code) hm
    obtain ⟨k', hk'⟩ := ih
    refine ⟨max k k', fun fuel hl => ?_⟩
    obtain ⟨v, h1, h2, _⟩ := hk fuel (by omega)
    rw [tryNames, h1]
    simp only [h2, Option.isSome_none, Bool.false_eq_true, if_false]
    exact hk' fuel (by omega)
  | value hm hc hv =>
    obtain ⟨k, hk⟩ := method_get (code := code) hm
    refine ⟨k, fun fuel hl => ?_⟩
    obtain ⟨v', h1, h2, h3⟩ := hk fuel hl
    cases h3 _ rfl
    rw [tryNames, h1]
    simp only [h2, Option.isSome_some, if_true, call_function h2, hc]
    rw [if_neg (no_object hv)]
  | object hm hc _ ih =>
    obtain ⟨k, hk⟩ := method_get (code := code) hm
    obtain ⟨k', hk'⟩ := ih
    refine ⟨max k k', fun fuel hl => ?_⟩
    obtain ⟨v', h1, h2, h3⟩ := hk fuel (by omega)
    cases h3 _ rfl
    rw [tryNames, h1]
    simp only [h2, Option.isSome_some, if_true, call_function h2, hc, isObject]
    exact hk' fuel (by omega)
  | throw hm hc =>
    obtain ⟨k, hk⟩ := method_get (code := code) hm
    refine ⟨k, fun fuel hl => ?_⟩
    obtain ⟨v', h1, h2, h3⟩ := hk fuel hl
    cases h3 _ rfl
    rw [tryNames, h1]
    simp only [h2, Option.isSome_some, if_true, call_function h2, hc]

/-- **C255 (in part).** Where a string is wanted, an object is converted as ECMAScript says: the first of `toString` and `valueOf` that
is a function and gives a primitive value decides, whatever functions do to the heap.  Missing: the other hints
(`C255_number_fails`), and methods that are accessors. -/
theorem C255_string_partial {code : Code} {o : Nat} {h h' : Heap} {r : Out Value} (hg : Gives code o (order .string) h h' r) :
    ∃ k, ∀ fuel, k ≤ fuel → toPrimitive code fuel .string o h = (h', r) := gives_names hg

theorem names_primitive {code : Code} {fuel o : Nat} : ∀ (ns : List String) (h h' : Heap) (v : Value),
    tryNames code fuel o ns h = (h', .ok v) → ∀ x, v ≠ .obj x
  | [], h, h', v, hr, x => by simp [tryNames] at hr
  | n :: ns, h, h', v, hr, x => by
    rw [tryNames] at hr
    split at hr
    · split at hr
      · split at hr
        · rename_i hi
          split at hr
          · exact names_primitive ns _ _ _ hr x
          · rename_i hn
            simp only [Prod.mk.injEq, Out.ok.injEq] at hr
            rw [← hr.2]
            rintro rfl
            exact hn rfl
        · rename_i hi
          exact absurd hr (hi _ _)
      · exact names_primitive ns _ _ _ hr x
    · rename_i hi
      exact absurd hr (hi _ _)

/-- **C255 (in part).** The result is never an object. -/
theorem C255_primitive {code : Code} {fuel o : Nat} {t : Hint} {h h' : Heap} {v : Value}
    (hr : toPrimitive code fuel t o h = (h', .ok v)) : ∀ x, v ≠ .obj x := names_primitive _ _ _ _ hr

/-- An object 0 whose prototype 1 has the methods `toString`, 2, and `valueOf`, 3. -/
def sample : Heap :=
  [{ proto := some 1 },
    { props := [(.str "toString", ⟨.data (.obj 2), true, true, true⟩), (.str "valueOf", ⟨.data (.obj 3), true, true, true⟩)] },
    { callable := true }, { callable := true }]

/-- `toString` gives `"a"`, `valueOf` gives `true`. -/
def sampleCode : Code := fun f _ _ h => (h, .ok (if f = 2 then .str "a" else .bool true))

theorem sample_string : Method sample 0 "toString" (some 2) :=
  .function (.next rfl (.last rfl)) (.later rfl (.here rfl)) rfl rfl
theorem sample_value : Method sample 0 "valueOf" (some 3) :=
  .function (.next rfl (.last rfl)) (.later rfl (.here rfl)) rfl rfl

example : Gives sampleCode 0 (order .string) sample sample (.ok (.str "a")) := .value sample_string rfl nofun

/-- **C255.** Where a number is wanted, or nothing in particular, `toString` is asked before `valueOf` as well. -/
theorem C255_number_fails (t : Hint) (ht : t ≠ .string) :
    Gives sampleCode 0 (order t) sample sample (.ok (.bool true)) ∧
    ∀ n, toPrimitive sampleCode (n + 2) t 0 sample = (sample, .ok (.str "a")) := by
  have ho : order t = ["valueOf", "toString"] := by cases t <;> first | rfl | exact absurd rfl ht
  refine ⟨ho ▸ .value sample_value rfl nofun, fun n => ?_⟩
  have hn : names t = ["toString", "valueOf"] := by simp [names]
  rw [toPrimitive, hn]
  rfl

/-! ## C256 -/

/-- **C256 (in part).** Making an exception never fails, and it has a name. -/
theorem C256_name_partial {code : Code} (hc : code.Good) {h : Heap} (hr : Reach code h) (t : Kind) :
    (createException code h t).2.2 = .ok true ∧
    (get code (createException code h t).1 (.str "name") (.obj h.length) (h.length + 2) h.length).2 = .ok (.str "Exception") := by
  have h1 : Reach code (step code h (.create none false)) := .step _ hr (fun x hx => by cases hx)
  have hl : (step code h (.create none false)).length = h.length + 1 := by simp [step]
  have ha : (step code h (.create none false)).at h.length = {} := by simp [step, Verif.Script.Heap.at]
  have ch : Chain (step code h (.create none false)) h.length [h.length] := .last (by rw [ha])
  have := Verif.Script.C42_new_property_partial hc h1 (o := h.length) (by omega) ch (k := .str "name") (.str "Exception")
    (by simp [Verif.Script.Heap.prop, ha, Verif.Script.find]) (by simp [ha])
  rw [hl] at this
  refine ⟨?_, ?_⟩
  · simpa only [createException, hl] using this.1
  · simpa only [createException, hl, step] using this.2

example : Reach Verif.Script.idle Verif.Script.pair := Verif.Script.pair_reach

/-- **C256.** The name is not that of the kind of exception: all kinds have the same. -/
theorem C256_kind_fails {code : Code} (hc : code.Good) {h : Heap} (hr : Reach code h) (t : Kind) :
    (get code (createException code h t).1 (.str "name") (.obj h.length) (h.length + 2) h.length).2 ≠ .ok (.str t.name) := by
  rw [(C256_name_partial hc hr t).2]
  cases t <;> simp [Kind.name]

end Verif.Coerce
