import Verif.Short.Spec
import Verif.Values.SidesProps

/-!
# Shorthands: keywords, and parsers of one token
-/

namespace Verif.Short
open Verif.Values

/-- Each word of the table is found as itself. -/
def KwOk (table : List (String × α)) : Prop :=
  ∀ p ∈ table, kwLookup table p.1.toList = some p.2

theorem parseKw_ident (table : List (String × α)) (w : List Char) (r : List Tok) :
    parseKw table (.ident w :: r) =
      (kwLookup table w, if (kwLookup table w).isSome then r else .ident w :: r) := by
  unfold parseKw
  rw [skipAny_ident]
  cases kwLookup table w <;> rfl

theorem parseKw_other (table : List (String × α)) {l : List Tok} (h : ∀ w r, l ≠ .ident w :: r) :
    parseKw table l = (none, l) := by
  unfold parseKw
  rw [skipAny_none table h]

theorem parseKw_oneTok (table : List (String × α)) : OneTok (parseKw table) := by
  refine ⟨parseKw_other table (fun w r h => by cases h), fun t => ?_⟩
  by_cases h : ∃ w, t = .ident w
  · obtain ⟨w, rfl⟩ := h
    exact ⟨_, parseKw_ident table w⟩
  · refine ⟨none, fun r => ?_⟩
    rw [parseKw_other table (fun w r' e => h ⟨w, (List.cons.inj e).1⟩)]
    rfl

theorem skipAny_word {table : List (String × α)} {k : String} {t : Tok} (h : Word k t)
    (r : List Tok) : skipAny table (t :: r) = (kwLookup table k.toList).map fun v => (v, r) := by
  cases h with
  | mk h => rw [skipAny_ident, kwLookup_congr h]

theorem skipIdent_word {k k' : String} {t : Tok} (h : Word k t) (r : List Tok) :
    skipIdent k'.toList (t :: r) = if eqCi k.toList k'.toList then some r else none := by
  cases h with
  | mk h => simp only [skipIdent, h.eqCi_congr]

theorem parseKw_word {table : List (String × α)} {k : String} {t : Tok} (h : Word k t)
    (r : List Tok) : parseKw table (t :: r) =
      (kwLookup table k.toList, if (kwLookup table k.toList).isSome then r else t :: r) := by
  cases h with
  | mk h => rw [parseKw_ident, kwLookup_congr h]

/-- What a table reads is one of its words. -/
theorem parseKw_one {table : List (String × α)} {l l' : List Tok} {v : α}
    (h : parseKw table l = (some v, l')) : ∃ t k, l = t :: l' ∧ (k, v) ∈ table ∧ Word k t := by
  obtain ⟨t, rfl, hr⟩ := (parseKw_oneTok table).one h
  by_cases ht : ∃ w, t = .ident w
  · obtain ⟨w, rfl⟩ := ht
    have := hr []
    rw [parseKw_ident] at this
    obtain ⟨k, hk, hc⟩ := kwLookup_some (Prod.mk.inj this).1
    exact ⟨_, k, rfl, hk, .mk hc⟩
  · rw [parseKw_other table (fun w r' e => ht ⟨w, (List.cons.inj e).1⟩)] at h
    cases h

/-- A parser of one token that found nothing is where it was. -/
theorem oneTok_fail {p : List Tok → Out α} (hp : OneTok p) {l l' : List Tok}
    (h : p l = (none, l')) : l' = l := by
  cases l with
  | nil => rw [hp.1] at h; exact (Prod.mk.inj h).2.symm
  | cons t r =>
    obtain ⟨o, ho⟩ := hp.2 t
    rw [ho] at h
    obtain ⟨h1, h2⟩ := Prod.mk.inj h
    subst h1
    exact h2.symm

theorem Plain.eatWs {ts : List Tok} (h : Plain ts) : Values.eatWs ts = ts := by
  cases ts with
  | nil => rfl
  | cons t r =>
    cases t with
    | ws => exact absurd rfl (h .ws (List.mem_cons_self ..))
    | _ => rfl

theorem Plain.tail {t : Tok} {ts : List Tok} (h : Plain (t :: ts)) : Plain ts :=
  fun u hu => h u (List.mem_cons_of_mem _ hu)

theorem declared_plain {p : List Tok → Out α} {ts : List Tok} (h : Plain ts) {v : α} :
    declared p ts = some v ↔ p ts = (some v, []) := by
  unfold declared
  rw [h.eatWs]
  split
  · next v' h' => rw [h']; simp
  · next hn =>
    constructor
    · intro h; cases h
    · intro h'; exact absurd h' (hn v)

/-- For a parser of one token, what a declaration of one token says is what is read anywhere. -/
theorem declared_one {p : List Tok → Out α} (hp : OneTok p) {t : Tok} (ht : t ≠ .ws) {v : α} :
    declared p [t] = some v ↔ Reads p t v := by
  rw [declared_plain (fun u hu => by simp at hu; rwa [hu])]
  constructor
  · intro h
    obtain ⟨t', e, hr⟩ := hp.one h
    cases e; exact hr
  · intro h; exact h []

theorem Word.ne_ws {k : String} {t : Tok} (h : Word k t) : t ≠ .ws := by
  cases h; simp

/-- A token is one of the words, or the table does not read it. -/
theorem parseKw_cases (table : List (String × α)) (l : List Tok) :
    (∃ t r v, l = t :: r ∧ parseKw table l = (some v, r)) ∨ parseKw table l = (none, l) := by
  cases h : parseKw table l with
  | mk o l' =>
    cases o with
    | none => exact .inr (by rw [oneTok_fail (parseKw_oneTok table) h])
    | some v =>
      obtain ⟨t, k, e, _, _⟩ := parseKw_one h
      exact .inl ⟨t, l', v, e, rfl⟩

end Verif.Short
