import Verif.Script.Lemmas
/-!
# Script objects: properties

C42 reading what was written, C43 writing to objects that inherit, C92 read-only properties, C93 termination, C94
accessors, C95 comparing values.

The fuel `h.length + 1` is that of the operations of a program.
-/
namespace Verif.Script

/-- Functions that do nothing. -/
def idle : Code := fun _ _ _ h => (h, .ok .undefined)

theorem idle_good : idle.Good := fun _ _ _ h ho => ⟨ho, Ext.refl h⟩

/-- An object with a prototype, both without properties. -/
def pair : Heap := [{}, { proto := some 0 }]

theorem pair_reach : Reach idle pair := by
  have h1 : Reach idle (step idle [] (.create none false)) := .step _ .nil (fun x hx => by cases hx)
  exact .step (.create (some 0) false) h1 (fun x hx => by cases hx; decide)

theorem chain_fits {code : Code} (hc : code.Good) {h : Heap} (hr : Reach code h) {o : Nat} (hl : o < h.length) :
    ∃ c, Chain h o c ∧ c.length ≤ h.length + 1 := by
  obtain ⟨c, h1, h2⟩ := chain_exists (reach_older hc hr) o
  exact ⟨c, h1, by omega⟩

/-! ## C42: reading what was written -/

/-- Writing a property that neither the object nor any of its prototypes has, and reading it, gives the value. -/
theorem C42_new_property_partial {code : Code} (hc : code.Good) {h : Heap} (hr : Reach code h) {o : Nat} (hl : o < h.length)
    {c : List Nat} (ch : Chain h o c) {k : Key} (v : Value) (hn : ∀ x ∈ c, h.prop x k = none)
    (he : ∀ x ∈ c, (h.at x).extensible = true) :
    (set code h k v (.obj o) (h.length + 1) o).2 = .ok true ∧
    (get code (step code h (.set o k v)) k (.obj o) (h.length + 1) o).2 = .ok v := by
  have hlen : c.length ≤ h.length + 1 := by have := chain_len (reach_older hc hr) ch; omega
  have hold := reach_older hc hr
  obtain ⟨rest, hcons⟩ := chain_head ch
  have hz := List.getLast_mem (chain_ne_nil ch)
  generalize hzz : c.getLast (chain_ne_nil ch) = z at hz
  have hset : set code h k v (.obj o) (h.length + 1) o =
      (h.setProp z k { slot := .data v, writable := true, enumerable := true, configurable := true }, .ok true) := by
    rw [set_absent ch hn hlen, hzz]
    have ho : h.own o k = none := own_none.2 (hn o (by rw [hcons]; exact List.mem_cons_self))
    simp only [setAt, Desc.isData, ho, createData]
    simp [define_absent _ (hn z hz), he z hz, Desc.make, Desc.isAccessor]
  refine ⟨by rw [hset], ?_⟩
  simp only [step, hset]
  have hzl := last_lt hold hl ch z hz
  have ch2 : Chain (h.setProp z k { slot := .data v, writable := true, enumerable := true, configurable := true }) o c :=
    chain_proto (fun x => proto_setProp _ _ _ _ _) ch
  rcases found_or (h := h.setProp z k { slot := .data v, writable := true, enumerable := true, configurable := true }) k c
    with ⟨x, p, hf⟩ | hno
  · rw [get_found ch2 hf hlen]
    have hx := found_mem hf
    rw [prop_setProp _ _ _ _ _ _ hzl] at hx
    by_cases hxz : z = x
    · simp only [hxz, and_self, if_true, Option.some.injEq] at hx
      rw [← hx.2]
      simp [getFrom, Prop'.desc, Desc.isData]
    · rw [if_neg (fun e => hxz e.1), hn x hx.1] at hx
      cases hx.2
  · have := hno z hz
    rw [prop_setProp _ _ _ _ _ _ hzl] at this
    simp at this

example : pair.prop 1 (.str "a") = none ∧ Chain pair 1 [1, 0] ∧
    (get idle (step idle pair (.set 1 (.str "a") (.bool true))) (.str "a") (.obj 1) 3 1).2 = .ok (.bool true) :=
  ⟨by decide, .next rfl (.last rfl), by decide⟩

/-- A property that an object has never changes, whatever is done. -/
theorem C42_never_changes {code : Code} (hc : code.Good) {h : Heap} (hr : Reach code h) (ops : List Op)
    (hv : ∀ pre op post, ops = pre ++ op :: post → op.Valid (pre.foldl (step code) h)) {o : Nat} {k : Key} {p : Prop'}
    (e : h.prop o k = some p) : (ops.foldl (step code) h).prop o k = some p := by
  induction ops generalizing h with
  | nil => exact e
  | cons op ops ih =>
    refine ih (.step op hr (hv [] op ops rfl)) ?_ ((ext_step hc (reach_older hc hr) op).prop o k p e)
    intro pre op' post hs
    have := hv (op :: pre) op' post (by rw [hs]; rfl)
    simpa using this

/-- Writing to a writable property of an object reports success and does nothing. -/
theorem C42_write_lost {code : Code} {h : Heap} {o : Nat} {k : Key} {w v : Value} {e c : Bool}
    (hp : h.prop o k = some { slot := .data w, writable := true, enumerable := e, configurable := c }) (fuel : Nat) :
    set code h k v (.obj o) (fuel + 1) o = (h, .ok true) ∧ (get code h k (.obj o) (fuel + 1) o).2 = .ok w := by
  constructor
  · simp only [set, own_of_prop hp, setAt, Prop'.desc, Desc.isData, Desc.isAccessor]
    simp [define_present _ hp]
  · simp [get, own_of_prop hp, getFrom, Prop'.desc, Desc.isData]

/-- So the value read is not the value written. -/
theorem C42_write_fails : ¬ ∀ (code : Code) (h : Heap) (o : Nat) (k : Key) (v : Value), code.Good → Reach code h →
    (∃ p, h.prop o k = some p ∧ p.writable = true) →
    (get code (step code h (.set o k v)) k (.obj o) (h.length + 1) o).2 = .ok v := by
  intro h
  have hr : Reach idle (step idle pair (.set 0 (.str "a") (.bool true))) := .step _ pair_reach (by simp [Op.Valid, pair])
  exact absurd (h idle _ 0 (.str "a") (.bool false) idle_good hr ⟨_, by rfl, rfl⟩) (by decide)

/-- A property that is defined has the value and the attributes of the descriptor, with the defaults for the rest. -/
theorem C42_define_partial {h : Heap} {o : Nat} {k : Key} (d : Desc) (hl : o < h.length) (hn : h.prop o k = none)
    (he : (h.at o).extensible = true) (hd : d.isAccessor = false) :
    (define h o k d).2 = .ok true ∧
    (define h o k d).1.prop o k = some { slot := .data d.value, writable := d.writable == some true, enumerable := d.enumerable == some true, configurable := d.configurable == some true } ∧
    OnlyAt h (define h o k d).1 o k := by
  have ho : ∀ b : Option Bool, (b == some true) = b.getD false := by
    intro b; rcases b with _ | _ | _ <;> rfl
  rw [define_absent d hn, if_pos he]
  refine ⟨rfl, ?_, onlyAt_setProp⟩
  rw [prop_setProp _ _ _ _ _ _ hl]
  simp [Desc.make, hd, ho]

/-- An object that is not extensible gets no properties. -/
theorem C42_not_extensible {h : Heap} {o : Nat} {k : Key} (d : Desc) (hn : h.prop o k = none)
    (he : (h.at o).extensible = false) : define h o k d = (h, .ok false) := by
  rw [define_absent d hn, he]; rfl

example : define [{ extensible := false }] 0 (.str "a") { value := .null } = ([{ extensible := false }], .ok false) := by decide

/-! ## C43: objects that inherit -/

/-- Writing changes at most one property, that of the last prototype (accessors apart). -/
theorem C43_only_last {code : Code} (hc : code.Good) {h : Heap} (hr : Reach code h) {o : Nat} (hl : o < h.length)
    {c : List Nat} (ch : Chain h o c) {k : Key} (v : Value)
    (ha : ∀ x ∈ c, ∀ p, h.prop x k = some p → ∃ w, p.slot = .data w) :
    OnlyAt h (step code h (.set o k v)) (c.getLast (chain_ne_nil ch)) k := by
  have hlen : c.length ≤ h.length + 1 := by have := chain_len (reach_older hc hr) ch; omega
  simp only [step]
  rcases found_or (h := h) k c with ⟨x, p, hf⟩ | hn
  · rw [set_found ch hf hlen]
    have hx := found_mem hf
    obtain ⟨w, hw⟩ := ha x hx.1 p hx.2
    have hdd : p.desc.isData = true := by simp [Prop'.desc, hw, Desc.isData]
    have same : (setAt code h x k v (.obj o) p.desc).1 = h := by
      simp only [setAt, hdd, if_true]
      split
      · rfl
      · cases ho : h.own o k with
        | none => simp only [createData, define_present _ hx.2]
        | some e =>
          obtain ⟨q, hq, _⟩ := own_some ho
          simp only [define_present _ hq]
          split
          · rfl
          · split <;> rfl
    rw [same]
    exact onlyAt_refl h _ _
  · obtain ⟨rest, hcons⟩ := chain_head ch
    have ho : h.own o k = none := own_none.2 (hn o (by rw [hcons]; exact List.mem_cons_self))
    rw [set_absent ch hn hlen]
    simp only [setAt, Desc.isData, ho, createData]
    simp only [define_absent _ (hn _ (List.getLast_mem (chain_ne_nil ch)))]
    simp
    split
    · exact onlyAt_setProp
    · exact onlyAt_refl h _ _

/-- Writing to an object without prototype never adds a property to another object. -/
theorem C43_other_objects_partial {code : Code} (hc : code.Good) {h : Heap} (hr : Reach code h) {o : Nat} (hl : o < h.length)
    (hp : (h.at o).proto = none) {k : Key} (v : Value) (ha : ∀ p, h.prop o k = some p → ∃ w, p.slot = .data w)
    (x : Nat) (hx : x ≠ o) (j : Key) : (step code h (.set o k v)).prop x j = h.prop x j := by
  have ch : Chain h o [o] := .last hp
  have := C43_only_last hc hr hl ch v (fun x hx p e => by
    rcases List.mem_singleton.1 hx with rfl; exact ha p e)
  exact this.2.2 x j (Or.inl hx)

example : (pair.at 0).proto = none ∧ (step idle pair (.set 0 (.str "a") .null)).prop 0 (.str "a") ≠ none := by decide

/-- Writing to an object that inherits adds the property to its prototype. -/
theorem C43_prototype_fails : ¬ ∀ (code : Code) (h : Heap) (o x : Nat) (k j : Key) (v : Value), code.Good → Reach code h →
    o < h.length → x ≠ o → (step code h (.set o k v)).prop x j = h.prop x j := by
  intro h
  exact absurd (h idle pair 1 0 (.str "a") (.str "a") .null idle_good pair_reach (by decide) (by decide)) (by decide)

/-- So two objects with the same prototype see each other's properties. -/
theorem C43_siblings_fails : ∃ (h : Heap), Reach idle h ∧ (h.at 1).proto = some 0 ∧ (h.at 2).proto = some 0 ∧
    (get idle h (.str "a") (.obj 2) 4 2).2 = .ok .undefined ∧
    (get idle (step idle h (.set 1 (.str "a") .null)) (.str "a") (.obj 2) 4 2).2 = .ok .null :=
  ⟨step idle pair (.create (some 0) false), .step _ pair_reach (fun x hx => by cases hx; decide), by decide, by decide,
    by decide, by decide⟩

/-! ## C92: read-only properties -/

/-- Writing to a property that is found read-only, in the object or in a prototype, has no effect and reports failure. -/
theorem C92_write {code : Code} (hc : code.Good) {h : Heap} (hr : Reach code h) {o : Nat} (hl : o < h.length)
    {c : List Nat} (ch : Chain h o c) {k : Key} (v r : Value) {x : Nat} {p : Prop'} (hf : Found h k c x p)
    {w : Value} (hd : p.slot = .data w) (hw : p.writable = false) :
    set code h k v r (h.length + 1) o = (h, .ok false) := by
  have hlen : c.length ≤ h.length + 1 := by have := chain_len (reach_older hc hr) ch; omega
  rw [set_found ch hf hlen]
  simp [setAt, Prop'.desc, hd, hw, Desc.isData]

def readOnly : Heap := step idle pair (.define 0 (.str "a") { value := .null })

example : Reach idle readOnly ∧ Chain readOnly 1 [1, 0] ∧
    Found readOnly (.str "a") [1, 0] 0 { slot := .data .null, writable := false, enumerable := false, configurable := false } :=
  ⟨.step _ pair_reach (by simp [Op.Valid, pair]), .next rfl (.last rfl), .later (by decide) (.here (by decide))⟩

/-- A second definition of a property has no effect. -/
theorem C92_define_again {h : Heap} {o : Nat} {k : Key} {p : Prop'} (d : Desc) (e : h.prop o k = some p) :
    (define h o k d).1 = h := by
  rw [define_present d e]

/-- But it reports success even if the property is neither writable nor configurable. -/
theorem C92_define_fails : ¬ ∀ (h : Heap) (o : Nat) (k : Key) (v w : Value) (e : Bool),
    h.prop o k = some { slot := .data w, writable := false, enumerable := e, configurable := false } → v ≠ w →
    (define h o k { value := v }).2 = .ok false := by
  intro h
  exact absurd (h readOnly 0 (.str "a") (.bool true) .null false (by decide) (by decide)) (by decide)

/-! ## C93: reading and writing end -/

/-- Reading and writing end for every object of every heap that a program can have, if the functions that they call do. -/
theorem C93_ends {code : Code} (hc : code.Good) (hcl : ∀ f t a h, (code f t a h).2 ≠ .loop) {h : Heap} (hr : Reach code h)
    {o : Nat} (hl : o < h.length) (k : Key) (v r : Value) :
    (get code h k r (h.length + 1) o).2 ≠ .loop ∧ (set code h k v r (h.length + 1) o).2 ≠ .loop := by
  obtain ⟨c, ch, hlen⟩ := chain_fits hc hr hl
  have hcall : ∀ f t a, (call code h f t a).2 ≠ .loop := by
    intro f t a
    unfold call
    split
    · split
      · split
        · exact hcl _ _ _ _
        · simp
      · simp
    · simp
  have hdef : ∀ x d, (define h x k d).2 ≠ .loop := by
    intro x d
    simp only [define, apply]
    split
    · split <;> simp
    · split
      · simp
      · split <;> simp
  have hset : ∀ x d, (setAt code h x k v r d).2 ≠ .loop := by
    intro x d
    unfold setAt
    split
    · split
      · simp
      · split
        · split
          · exact hdef _ _
          · split
            · simp
            · split
              · simp
              · exact hdef _ _
        · simp
    · split
      · simp
      · have := hcall r v []
        split <;> simp_all
  constructor
  · rcases found_or (h := h) k c with ⟨x, p, hf⟩ | hn
    · rw [get_found ch hf hlen]
      unfold getFrom
      split
      · simp
      · split
        · simp
        · split
          · simp
          · exact hcall _ _ _
    · rw [get_absent ch hn hlen]; simp
  · rcases found_or (h := h) k c with ⟨x, p, hf⟩ | hn
    · rw [set_found ch hf hlen]; exact hset _ _
    · rw [set_absent ch hn hlen]; exact hset _ _

example : (∀ f t a h, (idle f t a h).2 ≠ .loop) ∧ Reach idle pair := ⟨fun _ _ _ _ => by simp [idle], pair_reach⟩

/-- Without that invariant there is no end: two objects that are each other's prototypes. -/
example : ∀ fuel, (get idle [{ proto := some 1 }, { proto := some 0 }] (.str "a") .null fuel 0).2 = .loop ∧
    (get idle [{ proto := some 1 }, { proto := some 0 }] (.str "a") .null fuel 1).2 = .loop := by
  intro fuel
  induction fuel with
  | zero => exact ⟨rfl, rfl⟩
  | succ n ih => exact ⟨ih.2, ih.1⟩

/-- Reading a property finds the first one in the chain. -/
theorem C93_first {code : Code} (hc : code.Good) {h : Heap} (hr : Reach code h) {o : Nat} (hl : o < h.length)
    {c : List Nat} (ch : Chain h o c) {k : Key} (r : Value) :
    (∀ x p w, Found h k c x p → p.slot = .data w → get code h k r (h.length + 1) o = (h, .ok w)) ∧
    ((∀ x ∈ c, h.prop x k = none) → get code h k r (h.length + 1) o = (h, .ok .undefined)) := by
  have hlen : c.length ≤ h.length + 1 := by have := chain_len (reach_older hc hr) ch; omega
  refine ⟨fun x p w hf hd => ?_, fun hn => get_absent ch hn hlen⟩
  rw [get_found ch hf hlen]
  simp [getFrom, Prop'.desc, hd, Desc.isData]

/-! ## C94: accessors -/

/-- Reading a property with a getter calls the getter on the object that was asked, once. -/
theorem C94_getter_partial {code : Code} {h : Heap} {o : Nat} {c : List Nat} (ch : Chain h o c)
    (hlen : c.length ≤ h.length + 1) {k : Key} {x g : Nat} {s : Option Nat} {p : Prop'} (hf : Found h k c x p)
    (hs : p.slot = .accessor (some g) s) (hg : (h.at g).callable = true) :
    get code h k (.obj o) (h.length + 1) o = code g (.obj o) [] h := by
  rw [get_found ch hf hlen]
  simp [getFrom, Prop'.desc, hs, Desc.isData, Desc.isAccessor, call, ofPtr, hg]

def accessor (g s : Option Nat) : Heap := [{ props := [(.str "a", ⟨.accessor g s, false, true, true⟩)] }, { callable := true }]

example : Chain (accessor (some 1) none) 0 [0] ∧ Found (accessor (some 1) none) (.str "a") [0] 0
    ⟨.accessor (some 1) none, false, true, true⟩ ∧ ((accessor (some 1) none).at 1).callable = true :=
  ⟨.last rfl, .here (by decide), by decide⟩

/-- Without a getter, reading throws instead of giving `undefined`. -/
theorem C94_no_getter_fails : ¬ ∀ (h : Heap) (o : Nat) (k : Key) (s : Option Nat) (e c : Bool),
    h.prop o k = some ⟨.accessor none s, false, e, c⟩ → (get idle h k (.obj o) (h.length + 1) o).2 = .ok .undefined := by
  intro h
  exact absurd (h (accessor none none) 0 (.str "a") none true true (by decide)) (by decide)

/-- Writing does not call the setter but the object itself, which is no function. -/
theorem C94_setter_fails : ¬ ∀ (code : Code) (h : Heap) (o s : Nat) (g : Option Nat) (k : Key) (v : Value) (e c : Bool),
    h.prop o k = some ⟨.accessor g (some s), false, e, c⟩ → (h.at s).callable = true →
    (set code h k v (.obj o) (h.length + 1) o).1 = (code s (.obj o) [v] h).1 := by
  intro h
  have := h (fun _ _ _ h => (h ++ [Object.mk [] none true false], .ok .null)) (accessor none (some 1)) 0 1 none (.str "a") .null true true (by decide)
    (by decide)
  exact absurd this (by decide)

/-- No setter is ever called by writing to an object that is no function: the write throws. -/
theorem C94_setter_never {code : Code} {h : Heap} {o : Nat} {c : List Nat} (ch : Chain h o c)
    (hlen : c.length ≤ h.length + 1) {k : Key} {v : Value} {x : Nat} {g s : Option Nat} {p : Prop'} (hf : Found h k c x p)
    (hs : p.slot = .accessor g s) (ho : (h.at o).callable = false) :
    set code h k v (.obj o) (h.length + 1) o = (h, .throw) := by
  rw [set_found ch hf hlen]
  simp [setAt, Prop'.desc, hs, Desc.isData, call, ho]

/-! ## C95: comparing values -/

/-- What it is to be the same value. -/
def Same (x y : Value) : Prop := x = y

/-- Comparing is right whenever the types differ, for numbers that are neither zero nor NaN, for equal strings, `null` and
`undefined`. -/
theorem C95_same_partial (x y : Value) (hb : ∀ a b, ¬ (x = .bool a ∧ y = .bool b)) (hs : ∀ a b, ¬ (x = .sym a ∧ y = .sym b))
    (ho : ∀ a b, ¬ (x = .obj a ∧ y = .obj b)) (ht : ∀ a b, x = .str a → y = .str b → a = b)
    (hn : x ≠ .num .nan) (hz : ∀ a b, ¬ (x = .num (.zero a) ∧ y = .num (.zero b))) :
    ∃ b, sameValue x y = .ok b ∧ (b = true ↔ Same x y) := by
  unfold Same
  cases x <;> cases y <;> simp_all [sameValue, sameType, sameNonNumber]
  · next a b =>
    cases a <;> cases b <;> simp_all [Number.same] <;> (rename_i p q; cases p <;> cases q <;> simp_all)

example : ∃ b, sameValue (.num (.other 3)) (.num (.other 4)) = .ok b ∧ (b = true ↔ Same (.num (.other 3)) (.num (.other 4))) :=
  C95_same_partial _ _ (by simp) (by simp) (by simp) (by simp) (by simp) (by simp)

/-- Comparing two booleans, two symbols, two objects or two different strings aborts the program. -/
theorem C95_aborts (x y : Value) : sameValue x y = .panic ↔
    (∃ a b, x = .bool a ∧ y = .bool b) ∨ (∃ a b, x = .sym a ∧ y = .sym b) ∨ (∃ a b, x = .obj a ∧ y = .obj b) ∨
    ∃ a b, x = .str a ∧ y = .str b ∧ a ≠ b := by
  cases x <;> cases y <;> simp [sameValue, sameType, sameNonNumber]

/-- NaN is not the same as itself, and the two zeros are the same. -/
theorem C95_numbers_fail : sameValue (.num .nan) (.num .nan) = .ok false ∧
    sameValue (.num (.zero true)) (.num (.zero false)) = .ok true := by decide

end Verif.Script
