import Verif.Html.SafeRest
/-
Facts about the table of named character references, found by the kernel going through all of its
rows.
-/
namespace Verif.Html

/-- Every name is made of at least one letter or digit, more of them, and one more or a `;`. -/
def rowOk (r : Row) : Bool :=
  r.key.dropLast != [] && r.key.dropLast.all isAlphaNum &&
    r.key.all fun c => isAlphaNum c || c == ';'

/-- Every name without a semicolon is followed, within twelve rows, by the same name with one;
the names are in strictly increasing order. -/
def twins : List Row → Bool
  | [] => true
  | a :: r =>
    (a.key.getLast? == some ';' || (r.take 12).any fun b => b.key == a.key ++ [';']) && twins r

def less : Str → Str → Bool
  | _, [] => false
  | [], _ :: _ => true
  | a :: as, b :: bs => decide (a.toNat < b.toNat) || (a.toNat == b.toNat && less as bs)

def ordered : List Row → Bool
  | a :: b :: r => less a.key b.key && ordered (b :: r)
  | _ => true

theorem rows_ok : rows.all rowOk = true := by decide +kernel
theorem rows_twins : twins rows = true := by decide +kernel
theorem rows_ordered : ordered rows = true := by decide +kernel

theorem less_trans : ∀ {a b c : Str}, less a b = true → less b c = true → less a c = true
  | _, _, [], _, h => by simp [less] at h
  | _, [], _ :: _, h, _ => by cases ‹Str› <;> simp [less] at h
  | [], _ :: _, _ :: _, _, _ => rfl
  | a :: as, b :: bs, c :: cs, h1, h2 => by
    simp only [less, Bool.or_eq_true, decide_eq_true_eq, Bool.and_eq_true, beq_iff_eq] at *
    rcases h1 with h1 | ⟨h1, h1'⟩ <;> rcases h2 with h2 | ⟨h2, h2'⟩
    · left; omega
    · left; omega
    · left; omega
    · right; exact ⟨by omega, less_trans h1' h2'⟩

theorem less_irrefl : ∀ (a : Str), less a a = false
  | [] => rfl
  | a :: as => by simp [less, less_irrefl as]

theorem ordered_lt : ∀ {a : Row} {l : List Row}, ordered (a :: l) = true →
    ∀ b ∈ l, less a.key b.key = true
  | a, [], _, b, hb => by cases hb
  | a, c :: l, h, b, hb => by
    simp only [ordered, Bool.and_eq_true] at h
    rcases List.mem_cons.mp hb with e | hb
    · rw [e]; exact h.1
    · exact less_trans h.1 (ordered_lt h.2 b hb)

theorem ordered_tail {a : Row} {l : List Row} (h : ordered (a :: l) = true) : ordered l = true := by
  cases l with
  | nil => rfl
  | cons b r => simp only [ordered, Bool.and_eq_true] at h; exact h.2

theorem ordered_inj : ∀ {l : List Row}, ordered l = true → ∀ a ∈ l, ∀ b ∈ l, a.key = b.key → a = b
  | [], _, a, ha, _, _, _ => by cases ha
  | c :: l, h, a, ha, b, hb, e => by
    rcases List.mem_cons.mp ha with e1 | ha <;> rcases List.mem_cons.mp hb with e2 | hb
    · rw [e1, e2]
    · have := ordered_lt h b hb
      rw [← e1, e, less_irrefl] at this; cases this
    · have := ordered_lt h a ha
      rw [← e2, e, less_irrefl] at this; cases this
    · exact ordered_inj (ordered_tail h) a ha b hb e

theorem twins_mem : ∀ {l : List Row}, twins l = true → ∀ a ∈ l, a.key.getLast? ≠ some ';' →
    ∃ b ∈ l, b.key = a.key ++ [';']
  | [], _, a, ha, _ => by cases ha
  | c :: l, h, a, ha, hn => by
    simp only [twins, Bool.and_eq_true, Bool.or_eq_true, beq_iff_eq, List.any_eq_true] at h
    rcases List.mem_cons.mp ha with e | ha
    · rcases h.1 with h1 | ⟨b, hb, e'⟩
      · rw [e] at hn; exact absurd h1 hn
      · exact ⟨b, List.mem_cons_of_mem _ (List.mem_of_mem_take hb), by rw [e, e']⟩
    · obtain ⟨b, hb, e⟩ := twins_mem h.2 a ha hn
      exact ⟨b, List.mem_cons_of_mem _ hb, e⟩

theorem rows_chars {r : Row} (h : r ∈ rows) :
    r.key.dropLast ≠ [] ∧ (∀ c ∈ r.key.dropLast, isAlphaNum c = true) ∧
      ∀ c ∈ r.key, isAlphaNum c = true ∨ c = ';' := by
  have := List.all_eq_true.mp rows_ok r h
  unfold rowOk at this
  simp only [Bool.and_eq_true, List.all_eq_true, Bool.or_eq_true, beq_iff_eq, bne_iff_ne,
    ne_eq] at this
  exact ⟨this.1.1, this.1.2, this.2⟩

theorem rows_inj {a b : Row} (ha : a ∈ rows) (hb : b ∈ rows) (h : a.key = b.key) : a = b :=
  ordered_inj rows_ordered a ha b hb h

theorem mem_entities {e : Entity} : e ∈ entities ↔
    ∃ r ∈ rows, e = ⟨'&' :: r.key, r.points.map Char.ofNat⟩ := by
  simp [entities, eq_comm]

theorem entities_table : Table entities := by
  constructor
  · intro e he
    obtain ⟨r, hr, rfl⟩ := mem_entities.mp he
    intro hm
    rcases List.mem_cons.mp hm with h | h
    · exact absurd h (by decide)
    · rcases (rows_chars hr).2.2 _ h with h | h <;> exact absurd h (by decide)
  · intro e he hn
    obtain ⟨r, hr, rfl⟩ := mem_entities.mp he
    obtain ⟨b, hb, e'⟩ := twins_mem rows_twins r hr (by
      intro h
      apply hn
      have hne := (rows_chars hr).1
      cases hk : r.key with
      | nil => rw [hk] at hne; exact absurd rfl hne
      | cons x xs => rw [hk] at h; simpa [List.getLast?_cons_cons] using h)
    exact ⟨_, mem_entities.mpr ⟨b, hb, rfl⟩, ';', [], by simp [e']⟩

end Verif.Html
