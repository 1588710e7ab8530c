import Verif.Seams.Spec
/-!
# Collapsed borders: lemmas about one line
-/
namespace Verif.Seams
open Verif.Table (Slot Grid Border)

/-- One side of a line is made of cells. -/
structure Tiled (L : Line) (row : Nat → Slot) : Prop where
  lo : ∀ x, x < L.len → L.lead (row x) ≤ x
  hi : ∀ x, x < L.len → x < L.lead (row x) + L.span (row x)
  fits : ∀ x, x < L.len → L.lead (row x) + L.span (row x) ≤ L.len
  const : ∀ x y, x < L.len → L.lead (row x) ≤ y → y < L.lead (row x) + L.span (row x) → row y = row x
  empty : ∀ x, x < L.len → (row x).box = none → L.span (row x) = 1

structure Sound (L : Line) : Prop where
  a : Tiled L L.a
  b : Tiled L L.b
  cross : ∀ x, x < L.len → sameAnchor (L.a x) (L.b x) = true → L.a x = L.b x

variable {L : Line}

theorem sameAnchor_self (s : Slot) : sameAnchor s s = true := by simp [sameAnchor]

theorem tail_eq {row : Nat → Slot} (h : Tiled L row) {x : Nat} (hx : x < L.len) :
    tail L (row x) = L.lead (row x) + L.span (row x) - 1 := by
  have := h.hi x hx
  unfold tail pred64
  rw [if_neg (by omega)]

/-- A cell begins here, or the line is over. -/
def Bd (L : Line) (row : Nat → Slot) (s : Nat) : Prop := s < L.len → L.lead (row s) = s

theorem bd_next {row : Nat → Slot} (h : Tiled L row) {e : Nat} (he : e < L.len)
    (h1 : L.lead (row e) + L.span (row e) = e + 1) : Bd L row (e + 1) := by
  intro hs
  have hlo := h.lo (e + 1) hs
  have hhi := h.hi (e + 1) hs
  rcases Nat.lt_or_ge (L.lead (row (e + 1))) (e + 1) with hl | hl
  · have hc := h.const (e + 1) e hs (by omega) (by omega)
    rw [hc] at h1
    omega
  · omega

/-- In the middle of two cells that begin and end together. -/
def Mid (L : Line) (s : Nat) : Prop :=
  s < L.len ∧ L.lead (L.a s) < s ∧ L.lead (L.b s) < s ∧ tail L (L.a s) = tail L (L.b s)

/-- Where the loop can stand at the beginning of a turn. -/
def Stand (L : Line) (s : Nat) : Prop :=
  (Bd L L.a s ∧ Bd L L.b s) ∨ Mid L s ∨ (s < L.len ∧ sameAnchor (L.a s) (L.b s) = true)

theorem stand_step (h : Sound L) {s : Nat} (hs : s < L.len) (ht : through L s = true) (hst : Stand L s) :
    Stand L (s + 1) := by
  unfold through at ht
  rw [Bool.or_eq_true, Bool.and_eq_true] at ht
  rcases ht with ht | ⟨h1, h2⟩
  · have he := h.cross s hs ht
    have hia := h.a.hi s hs
    rcases Nat.lt_or_ge (s + 1) (L.lead (L.a s) + L.span (L.a s)) with hl | hl
    · have hlo := h.a.lo s hs
      have h1 := h.a.const s (s + 1) hs (by omega) hl
      have h2 := h.b.const s (s + 1) hs (by rw [← he]; omega) (by rw [← he]; exact hl)
      have := h.a.fits s hs
      exact .inr (.inr ⟨by omega, by rw [h1, h2, ← he]; exact sameAnchor_self _⟩)
    · exact .inl ⟨bd_next h.a hs (by omega), bd_next h.b hs (by rw [← he]; omega)⟩
  · rw [Option.isNone_iff_eq_none] at h1 h2
    have e1 := h.a.empty s hs h1
    have e2 := h.b.empty s hs h2
    have := h.a.lo s hs
    have := h.b.lo s hs
    have := h.a.hi s hs
    have := h.b.hi s hs
    exact .inl ⟨bd_next h.a hs (by omega), bd_next h.b hs (by omega)⟩

theorem skip_facts (h : Sound L) (n s : Nat) (hs : s ≤ L.len) (hst : Stand L s) (hn : L.len ≤ s + n) :
    s ≤ skip L n s ∧ skip L n s ≤ L.len ∧ Stand L (skip L n s) ∧
      (∀ y, s ≤ y → y < skip L n s → through L y = true) ∧ (skip L n s < L.len → through L (skip L n s) = false) := by
  induction n generalizing s with
  | zero => exact ⟨Nat.le_refl _, hs, hst, fun y h1 h2 => by simp only [skip] at h2; omega, fun h1 => by simp only [skip] at h1; omega⟩
  | succ n ih =>
    rw [skip]
    by_cases hc : s < L.len ∧ through L s = true
    · rw [if_pos hc]
      obtain ⟨h1, h2, h3, h4, h5⟩ := ih (s + 1) (by omega) (stand_step h hc.1 hc.2 hst) (by omega)
      refine ⟨by omega, h2, h3, ?_, h5⟩
      intro y hy1 hy2
      rcases Nat.lt_or_ge s y with hy | hy
      · exact h4 y hy hy2
      · have : y = s := by omega
        rw [this]; exact hc.2
    · rw [if_neg hc]
      refine ⟨Nat.le_refl _, hs, hst, fun y h1 h2 => by omega, fun h1 => ?_⟩
      cases ht : through L s with
      | false => rfl
      | true => exact absurd ⟨h1, ht⟩ hc

theorem not_same {s : Nat} (ht : through L s = false) : sameAnchor (L.a s) (L.b s) = false := by
  unfold through at ht
  rw [Bool.or_eq_false_iff] at ht
  exact ht.1

/-- A cell on both sides of the line somewhere is so everywhere. -/
theorem cross_back (h : Sound L) {e x : Nat} (hx : x < L.len) (he : e < L.len) (hs : sameAnchor (L.a x) (L.b x) = true)
    (hm : L.a e = L.a x ∨ L.b e = L.b x) : sameAnchor (L.a e) (L.b e) = true := by
  have hc := h.cross x hx hs
  have hab : L.a e = L.b e := by
    rcases hm with hm | hm
    · have h1 := h.a.lo e he
      have h2 := h.a.hi e he
      rw [hm] at h1 h2
      rw [hm, hc]
      rw [hc] at h1 h2
      exact (h.b.const x e hx h1 h2).symm
    · have h1 := h.b.lo e he
      have h2 := h.b.hi e he
      rw [hm] at h1 h2
      rw [hm, ← hc]
      rw [← hc] at h1 h2
      exact h.a.const x e hx h1 h2
  rw [hab]
  exact sameAnchor_self _

theorem extend_facts (h : Sound L) (s n e : Nat) (he : e < L.len) (hse : s ≤ e) (hn : L.len < e + n)
    (hd : sameAnchor (L.a e) (L.b e) = false)
    (hp : e = s ∨ tail L (L.a e) = e ∨ tail L (L.b e) = e) :
    ∃ e', extend L n e = .ok e' ∧ e ≤ e' ∧ e' < L.len ∧
      ((e' = s ∧ tail L (L.a s) = tail L (L.b s)) ∨ (tail L (L.a e') = e' ∧ tail L (L.b e') = e')) := by
  induction n generalizing e with
  | zero => omega
  | succ n ih =>
    rw [extend, if_neg (by omega), if_neg (by rw [hd]; simp)]
    by_cases ht : tail L (L.a e) = tail L (L.b e)
    · rw [if_pos ht]
      refine ⟨e, rfl, Nat.le_refl _, he, ?_⟩
      rcases hp with hp | hp | hp
      · exact .inl ⟨hp, by rw [← hp]; exact ht⟩
      · exact .inr ⟨hp, by omega⟩
      · exact .inr ⟨by omega, hp⟩
    · rw [if_neg ht]
      have ta := tail_eq h.a he
      have tb := tail_eq h.b he
      have ha := h.a.hi e he
      have hb := h.b.hi e he
      have fa := h.a.fits e he
      have fb := h.b.fits e he
      have la := h.a.lo e he
      have lb := h.b.lo e he
      have hmax : max (tail L (L.a e)) (tail L (L.b e)) > e := by omega
      have hstep : (if L.force then (if max (tail L (L.a e)) (tail L (L.b e)) > e then max (tail L (L.a e)) (tail L (L.b e)) else e + 1)
          else max (tail L (L.a e)) (tail L (L.b e))) = max (tail L (L.a e)) (tail L (L.b e)) := by
        rw [if_pos hmax, ite_self]
      simp only [hstep]
      have hlen : max (tail L (L.a e)) (tail L (L.b e)) < L.len := by omega
      have key : (L.a (max (tail L (L.a e)) (tail L (L.b e))) = L.a e ∧ tail L (L.a e) = max (tail L (L.a e)) (tail L (L.b e))) ∨
          (L.b (max (tail L (L.a e)) (tail L (L.b e))) = L.b e ∧ tail L (L.b e) = max (tail L (L.a e)) (tail L (L.b e))) := by
        rcases Nat.le_total (tail L (L.b e)) (tail L (L.a e)) with hle | hle
        · rw [Nat.max_eq_left hle]
          exact .inl ⟨h.a.const e _ he (by omega) (by omega), rfl⟩
        · rw [Nat.max_eq_right hle]
          exact .inr ⟨h.b.const e _ he (by omega) (by omega), rfl⟩
      obtain ⟨e', h1, h2, h3⟩ := ih (max (tail L (L.a e)) (tail L (L.b e))) hlen (by omega) (by omega) (by
          cases hc : sameAnchor (L.a (max (tail L (L.a e)) (tail L (L.b e)))) (L.b (max (tail L (L.a e)) (tail L (L.b e)))) with
          | false => rfl
          | true =>
            have := cross_back h hlen he hc (by
              rcases key with k | k
              · exact .inl k.1.symm
              · exact .inr k.1.symm)
            rw [this] at hd; cases hd) (by
          rcases key with k | k
          · exact .inr (.inl (by rw [k.1]; exact k.2))
          · exact .inr (.inr (by rw [k.1]; exact k.2)))
      exact ⟨e', h1, by omega, h3⟩

theorem visit_facts {row : Nat → Slot} (h : Tiled L row) (e : Nat) (he : e < L.len) (n j : Nat) (h0 : 0 < n) (hn : e + 1 < j + n) :
    ∃ l, visit L row e n j = .ok l ∧ l.Pairwise (· < ·) ∧ (∀ y ∈ l, j ≤ y ∧ y ≤ e) := by
  induction n generalizing j with
  | zero => omega
  | succ n ih =>
    rw [visit]
    by_cases hj : j ≤ e
    · rw [if_pos hj, if_neg (by omega)]
      have := h.hi j (by omega)
      have := h.lo j (by omega)
      obtain ⟨l, h1, h2, h3⟩ := ih (j + L.span (row j)) (by omega) (by omega)
      rw [h1]
      refine ⟨_, rfl, ?_, ?_⟩
      · split
        · exact List.pairwise_cons.2 ⟨fun y hy => by have := h3 y hy; omega, h2⟩
        · exact h2
      · intro y hy
        split at hy
        · rcases List.mem_cons.1 hy with rfl | hy
          · omega
          · have := h3 y hy; omega
        · have := h3 y hy; omega
    · rw [if_neg hj]
      exact ⟨[], rfl, .nil, by simp⟩

theorem visit_cover {row : Nat → Slot} (h : Tiled L row) (e : Nat) (he : e < L.len) (n j : Nat) (hn : e + 1 < j + n)
    (hb : Bd L row j) (l : List Nat) (hl : visit L row e n j = .ok l) (y : Nat) (hy : y < L.len) (hbox : (row y).box.isSome)
    (h1 : j ≤ L.lead (row y)) (h2 : L.lead (row y) ≤ e) : L.lead (row y) ∈ l := by
  induction n generalizing j l with
  | zero => omega
  | succ n ih =>
    rw [visit, if_pos (by omega), if_neg (by omega)] at hl
    have hjl : j < L.len := by omega
    have hlead := hb hjl
    have hhi := h.hi j hjl
    obtain ⟨l', hv, -, -⟩ := visit_facts h e he n (j + L.span (row j)) (by omega) (by omega)
    rw [hv] at hl
    cases hl
    have hyy := h.lo y hy
    have hyh := h.hi y hy
    rcases Nat.lt_or_ge (L.lead (row y)) (j + L.span (row j)) with hc | hc
    · have hm : row (L.lead (row y)) = row j := h.const j _ hjl (by omega) (by omega)
      have hm2 : row (L.lead (row y)) = row y := h.const y _ hy (Nat.le_refl _) (by omega)
      have : row y = row j := by rw [← hm2, hm]
      rw [this] at hbox ⊢
      rw [if_pos hbox, hlead]
      exact List.mem_cons_self ..
    · have hnext : Bd L row (j + L.span (row j)) := by
        have hf := h.fits j hjl
        have hlast : j + L.span (row j) - 1 < L.len := by omega
        have hc' := h.const j (j + L.span (row j) - 1) hjl (by omega) (by omega)
        have hb' := bd_next h hlast (by rw [hc']; omega)
        have : j + L.span (row j) - 1 + 1 = j + L.span (row j) := by omega
        rw [this] at hb'
        exact hb'
      have := ih (j + L.span (row j)) (by omega) hnext l' hv hc
      split
      · exact List.mem_cons_of_mem _ this
      · exact this

/-- What the loop over a line does, from one of the places where it can stand. -/
structure Done (L : Line) (s : Nat) (ts : List Stretch) : Prop where
  as : (ts.flatMap (·.as)).Pairwise (· < ·)
  bs : (ts.flatMap (·.bs)).Pairwise (· < ·)
  low : ∀ t ∈ ts, (∀ y ∈ t.as, s ≤ y ∧ y < L.len) ∧ (∀ y ∈ t.bs, s ≤ y ∧ y < L.len)
  cover : ∀ x, x < L.len → s ≤ L.lead (L.a x) → s ≤ L.lead (L.b x) → through L x = false → ∃ t ∈ ts,
    ((L.a x).box.isSome → L.lead (L.a x) ∈ t.as) ∧ ((L.b x).box.isSome → L.lead (L.b x) ∈ t.bs)

theorem done_cons {s e : Nat} {t : Stretch} {ts : List Stretch} (hd : Done L (e + 1) ts) (hse : s ≤ e) (he : e < L.len)
    (ha : t.as.Pairwise (· < ·)) (hb : t.bs.Pairwise (· < ·)) (ha' : ∀ y ∈ t.as, s ≤ y ∧ y ≤ e) (hb' : ∀ y ∈ t.bs, s ≤ y ∧ y ≤ e)
    (hc : ∀ x, x < L.len → s ≤ L.lead (L.a x) → s ≤ L.lead (L.b x) → through L x = false →
      (e + 1 ≤ L.lead (L.a x) ∧ e + 1 ≤ L.lead (L.b x)) ∨
      (((L.a x).box.isSome → L.lead (L.a x) ∈ t.as) ∧ ((L.b x).box.isSome → L.lead (L.b x) ∈ t.bs))) :
    Done L s (t :: ts) := by
  constructor
  · rw [List.flatMap_cons, List.pairwise_append]
    refine ⟨ha, hd.as, ?_⟩
    intro y hy z hz
    obtain ⟨t', ht', hz⟩ := List.mem_flatMap.1 hz
    have := ha' y hy
    have := (hd.low t' ht').1 z hz
    omega
  · rw [List.flatMap_cons, List.pairwise_append]
    refine ⟨hb, hd.bs, ?_⟩
    intro y hy z hz
    obtain ⟨t', ht', hz⟩ := List.mem_flatMap.1 hz
    have := hb' y hy
    have := (hd.low t' ht').2 z hz
    omega
  · intro t' ht'
    rcases List.mem_cons.1 ht' with rfl | ht'
    · exact ⟨fun y hy => by have := ha' y hy; omega, fun y hy => by have := hb' y hy; omega⟩
    · have hl := hd.low t' ht'
      exact ⟨fun y hy => by have := hl.1 y hy; omega, fun y hy => by have := hl.2 y hy; omega⟩
  · intro x hx h1 h2 h3
    rcases hc x hx h1 h2 h3 with ⟨h4, h5⟩ | h4
    · obtain ⟨t', ht', h6⟩ := hd.cover x hx h4 h5 h3
      exact ⟨t', List.mem_cons_of_mem _ ht', h6⟩
    · exact ⟨t, List.mem_cons_self .., h4⟩

/-- Cells that begin behind `s` begin behind all slots without a border. -/
theorem lead_past (h : Sound L) {s s1 x : Nat} (hx : x < L.len) (ht : through L x = false)
    (hall : ∀ y, s ≤ y → y < s1 → through L y = true) (hl : s1 ≤ L.len) (h1 : s ≤ L.lead (L.a x)) (h2 : s ≤ L.lead (L.b x)) :
    s1 ≤ L.lead (L.a x) ∧ s1 ≤ L.lead (L.b x) := by
  have hxs : s1 ≤ x := by
    rcases Nat.lt_or_ge x s1 with hc | hc
    · have := h.a.lo x hx
      rw [hall x (by omega) hc] at ht; cases ht
    · exact hc
  have hn := not_same ht
  constructor
  · rcases Nat.lt_or_ge (L.lead (L.a x)) s1 with hc | hc
    · exfalso
      have hth := hall _ h1 hc
      have hhi := h.a.hi x hx
      have heq := h.a.const x (L.lead (L.a x)) hx (Nat.le_refl _) (by have := h.a.lo x hx; omega)
      unfold through at hth
      rw [Bool.or_eq_true, Bool.and_eq_true] at hth
      rcases hth with hth | ⟨hth, -⟩
      · have := cross_back h (x := L.lead (L.a x)) (e := x) (by omega) hx hth (.inl heq.symm)
        rw [this] at hn; cases hn
      · rw [heq, Option.isNone_iff_eq_none] at hth
        have := h.a.empty x hx hth
        omega
    · exact hc
  · rcases Nat.lt_or_ge (L.lead (L.b x)) s1 with hc | hc
    · exfalso
      have hth := hall _ h2 hc
      have hhi := h.b.hi x hx
      have heq := h.b.const x (L.lead (L.b x)) hx (Nat.le_refl _) (by have := h.b.lo x hx; omega)
      unfold through at hth
      rw [Bool.or_eq_true, Bool.and_eq_true] at hth
      rcases hth with hth | ⟨-, hth⟩
      · have := cross_back h (x := L.lead (L.b x)) (e := x) (by omega) hx hth (.inr heq.symm)
        rw [this] at hn; cases hn
      · rw [heq, Option.isNone_iff_eq_none] at hth
        have := h.b.empty x hx hth
        omega
    · exact hc

theorem stretch_mid (h : Sound L) {s : Nat} (hs : s < L.len) (ht : through L s = false) (hm : Mid L s) :
    ∃ t, stretch L s = .ok t ∧ t.stop = s ∧ t.as.Pairwise (· < ·) ∧ t.bs.Pairwise (· < ·) ∧
      (∀ y ∈ t.as, s ≤ y ∧ y ≤ s) ∧ (∀ y ∈ t.bs, s ≤ y ∧ y ≤ s) := by
  obtain ⟨as, h1, h2, h3⟩ := visit_facts h.a s hs (L.len + 2) s (by omega) (by omega)
  obtain ⟨bs, h4, h5, h6⟩ := visit_facts h.b s hs (L.len + 2) s (by omega) (by omega)
  refine ⟨⟨s, s, as, bs⟩, ?_, rfl, h2, h5, h3, h6⟩
  unfold stretch
  rw [extend, if_neg (by omega), if_neg (by rw [not_same ht]; simp), if_pos hm.2.2.2]
  simp only [Res.bind]
  rw [h1]
  show Res.bind _ _ = _
  rw [h4]
  rfl

theorem stretch_bd (h : Sound L) {s : Nat} (hs : s < L.len) (ht : through L s = false) (hba : Bd L L.a s) (hbb : Bd L L.b s) :
    ∃ t, stretch L s = .ok t ∧ s ≤ t.stop ∧ t.stop < L.len ∧ t.as.Pairwise (· < ·) ∧ t.bs.Pairwise (· < ·) ∧
      (∀ y ∈ t.as, s ≤ y ∧ y ≤ t.stop) ∧ (∀ y ∈ t.bs, s ≤ y ∧ y ≤ t.stop) ∧
      ((t.stop = s ∧ tail L (L.a s) = tail L (L.b s)) ∨ (tail L (L.a t.stop) = t.stop ∧ tail L (L.b t.stop) = t.stop)) ∧
      (∀ y, y < L.len → (L.a y).box.isSome → s ≤ L.lead (L.a y) → L.lead (L.a y) ≤ t.stop → L.lead (L.a y) ∈ t.as) ∧
      (∀ y, y < L.len → (L.b y).box.isSome → s ≤ L.lead (L.b y) → L.lead (L.b y) ≤ t.stop → L.lead (L.b y) ∈ t.bs) := by
  obtain ⟨e, he1, he2, he3, he4⟩ := extend_facts h s (L.len + 2) s hs (Nat.le_refl _) (by omega) (not_same ht) (.inl rfl)
  obtain ⟨as, h1, h2, h3⟩ := visit_facts h.a e he3 (L.len + 2) s (by omega) (by omega)
  obtain ⟨bs, h4, h5, h6⟩ := visit_facts h.b e he3 (L.len + 2) s (by omega) (by omega)
  refine ⟨⟨s, e, as, bs⟩, ?_, he2, he3, h2, h5, h3, h6, he4, ?_, ?_⟩
  · unfold stretch
    rw [he1]
    simp only [Res.bind]
    rw [h1]
    show Res.bind _ _ = _
    rw [h4]
    rfl
  · intro y hy hb hl1 hl2
    exact visit_cover h.a e he3 _ s (by omega) hba as h1 y hy hb hl1 hl2
  · intro y hy hb hl1 hl2
    exact visit_cover h.b e he3 _ s (by omega) hbb bs h4 y hy hb hl1 hl2

/-- A cell that begins at or before the last slot of a cell ends there or before it. -/
theorem within_stop {row : Nat → Slot} (h : Tiled L row) {e x : Nat} (he : e < L.len) (hx : x < L.len) (ht : tail L (row e) = e)
    (hl : L.lead (row x) ≤ e) : x ≤ e := by
  rcases Nat.lt_or_ge e x with hc | hc
  · have hh := h.hi x hx
    have := h.const x e hx hl (by omega)
    have ht' := tail_eq h he
    have hh' := h.hi e he
    rw [this] at ht ht' hh'
    omega
  · exact hc

theorem stretches_done (h : Sound L) (n s : Nat) (hs : s ≤ L.len) (hn : L.len < s + n) (hst : Stand L s) :
    ∃ ts, stretches L n s = .ok ts ∧ Done L s ts := by
  induction n generalizing s with
  | zero => omega
  | succ n ih =>
    obtain ⟨k1, k2, k3, k4, k5⟩ := skip_facts h L.len s hs hst (by omega)
    rw [stretches]
    generalize skip L L.len s = s1 at *
    by_cases hc : s1 < L.len
    · rw [if_pos hc]
      have ht := k5 hc
      have hn' := not_same ht
      rcases k3 with ⟨hba, hbb⟩ | hm | ⟨-, hm⟩
      · obtain ⟨t, t1, t2, t3, t4, t5, t6, t7, t8, t9, t10⟩ := stretch_bd h hc ht hba hbb
        have la := hba hc
        have lb := hbb hc
        have ta := tail_eq h.a hc
        have tb := tail_eq h.b hc
        have ha := h.a.hi s1 hc
        have hb := h.b.hi s1 hc
        have fa := h.a.fits s1 hc
        have hnext : Stand L (t.stop + 1) := by
          rcases t8 with ⟨e1, e2⟩ | ⟨e1, e2⟩
          · rw [e1]
            rcases Nat.lt_or_ge (s1 + 1) (L.lead (L.a s1) + L.span (L.a s1)) with hl | hl
            · have c1 := h.a.const s1 (s1 + 1) hc (by omega) hl
              have c2 := h.b.const s1 (s1 + 1) hc (by omega) (by omega)
              exact .inr (.inl ⟨by omega, by rw [c1]; omega, by rw [c2]; omega, by rw [c1, c2]; exact e2⟩)
            · exact .inl ⟨bd_next h.a hc (by omega), bd_next h.b hc (by omega)⟩
          · have q1 := tail_eq h.a t3
            have q2 := tail_eq h.b t3
            have q3 := h.a.hi _ t3
            have q4 := h.b.hi _ t3
            exact .inl ⟨bd_next h.a t3 (by omega), bd_next h.b t3 (by omega)⟩
        obtain ⟨ts, r1, r2⟩ := ih (t.stop + 1) (by omega) (by omega) hnext
        rw [t1]
        simp only [Res.bind]
        rw [r1]
        refine ⟨t :: ts, rfl, done_cons r2 (by omega) t3 t4 t5 (fun y hy => by have := t6 y hy; omega)
          (fun y hy => by have := t7 y hy; omega) ?_⟩
        intro x hx l1 l2 hth
        obtain ⟨p1, p2⟩ := lead_past h hx hth k4 k2 l1 l2
        by_cases hfar : t.stop + 1 ≤ L.lead (L.a x) ∧ t.stop + 1 ≤ L.lead (L.b x)
        · exact .inl hfar
        · right
          have hboth : L.lead (L.a x) ≤ t.stop ∧ L.lead (L.b x) ≤ t.stop := by
            rcases t8 with ⟨e1, e2⟩ | ⟨e1, e2⟩
            · have h1 := h.a.lo x hx
              have h2 := h.a.hi x hx
              have h3 := h.b.lo x hx
              have h4 := h.b.hi x hx
              rcases Nat.lt_or_ge t.stop (L.lead (L.a x)) with hq | hq
              · have hq' : L.lead (L.b x) = s1 := by omega
                have c := h.b.const x s1 hx (by omega) (by omega)
                have c2 := h.a.const s1 x hc (by omega) (by rw [← c] at h4; omega)
                rw [c2] at hq
                omega
              · have hq' : L.lead (L.a x) = s1 := by omega
                have c := h.a.const x s1 hx (by omega) (by omega)
                have c2 := h.b.const s1 x hc (by omega) (by rw [← c] at h2; omega)
                rw [c2]
                omega
            · have hxe : x ≤ t.stop := by
                rcases Nat.lt_or_ge t.stop (L.lead (L.a x)) with hq | hq
                · exact within_stop h.b t3 hx e2 (by omega)
                · exact within_stop h.a t3 hx e1 hq
              have := h.a.lo x hx
              have := h.b.lo x hx
              omega
          exact ⟨fun hbx => t9 x hx hbx p1 hboth.1, fun hbx => t10 x hx hbx p2 hboth.2⟩
      · obtain ⟨t, t1, t2, t4, t5, t6, t7⟩ := stretch_mid h hc ht hm
        obtain ⟨-, m1, m2, m3⟩ := hm
        have ta := tail_eq h.a hc
        have tb := tail_eq h.b hc
        have ha := h.a.hi s1 hc
        have hb := h.b.hi s1 hc
        have fa := h.a.fits s1 hc
        have hnext : Stand L (s1 + 1) := by
          rcases Nat.lt_or_ge (s1 + 1) (L.lead (L.a s1) + L.span (L.a s1)) with hl | hl
          · have c1 := h.a.const s1 (s1 + 1) hc (by omega) hl
            have c2 := h.b.const s1 (s1 + 1) hc (by omega) (by omega)
            exact .inr (.inl ⟨by omega, by rw [c1]; omega, by rw [c2]; omega, by rw [c1, c2]; exact m3⟩)
          · exact .inl ⟨bd_next h.a hc (by omega), bd_next h.b hc (by omega)⟩
        obtain ⟨ts, r1, r2⟩ := ih (s1 + 1) (by omega) (by omega) hnext
        rw [t1]
        simp only [Res.bind]
        rw [t2, r1]
        refine ⟨t :: ts, rfl, done_cons r2 (by omega) hc t4 t5 (fun y hy => by have := t6 y hy; omega)
          (fun y hy => by have := t7 y hy; omega) ?_⟩
        intro x hx l1 l2 hth
        obtain ⟨p1, p2⟩ := lead_past h hx hth k4 k2 l1 l2
        left
        have h1 := h.a.lo x hx
        have h2 := h.a.hi x hx
        have h3 := h.b.lo x hx
        have h4 := h.b.hi x hx
        constructor
        · rcases Nat.lt_or_ge s1 (L.lead (L.a x)) with hq | hq
          · exact hq
          · have c := h.a.const x s1 hx (by omega) (by omega)
            rw [c] at m1
            omega
        · rcases Nat.lt_or_ge s1 (L.lead (L.b x)) with hq | hq
          · exact hq
          · have c := h.b.const x s1 hx (by omega) (by omega)
            rw [c] at m2
            omega
      · rw [hm] at hn'; cases hn'
    · rw [if_neg hc]
      refine ⟨[], rfl, .nil, .nil, by simp, ?_⟩
      intro x hx l1 l2 hth
      have := (lead_past h hx hth k4 k2 l1 l2).1
      have := h.a.lo x hx
      omega

theorem run_done (h : Sound L) : ∃ ts, run L = .ok ts ∧ Done L 0 ts := by
  apply stretches_done h (L.len + 1) 0 (by omega) (by omega)
  left
  exact ⟨fun hs => by have := h.a.lo 0 hs; omega, fun hs => by have := h.b.lo 0 hs; omega⟩

/-! ## Writes -/

theorem written_append (u v : List (Nat × Border)) (k : Nat) (hv : ∀ w ∈ v, w.1 ≠ k) : written (u ++ v) k = written u k := by
  unfold written
  rw [List.foldl_append]
  generalize List.foldl (fun acc (w : Nat × Border) => if w.1 = k then w.2 else acc) ⟨0, .none, 0⟩ u = acc
  induction v generalizing acc with
  | nil => rfl
  | cons w v ih =>
    rw [List.foldl_cons, if_neg (hv w (by simp))]
    exact ih (fun w' h' => hv w' (by simp [h'])) acc

/-- Writes for places in a row; the last one for this place is the one that counts. -/
theorem written_sorted (js : List (Nat × Border)) (f : Nat → Nat) (hs : (js.map (·.1)).Pairwise (· < ·)) (j : Nat) (b : Border)
    (hj : (j, b) ∈ js) (hf : ∀ i, i ∈ js.map (·.1) → j < i → f i ≠ f j) :
    written (js.map fun p => (f p.1, p.2)) (f j) = b := by
  obtain ⟨u, v, rfl⟩ := List.append_of_mem hj
  rw [List.map_append, List.map_cons, List.pairwise_append, List.pairwise_cons] at hs
  have : (u ++ (j, b) :: v).map (fun p => (f p.1, p.2)) = (u.map (fun p => (f p.1, p.2)) ++ [(f j, b)]) ++ v.map (fun p => (f p.1, p.2)) := by
    simp
  rw [this, written_append]
  · unfold written
    rw [List.foldl_append]
    simp
  · intro w hw
    obtain ⟨p, hp, rfl⟩ := List.mem_map.1 hw
    have hlt := hs.2.1.1 p.1 (List.mem_map_of_mem hp)
    exact hf p.1 (by simp only [List.mem_map]; exact ⟨p, by simp [hp], rfl⟩) hlt

/-- The border of a cell at its last slot along the line. -/
def usedA (L : Line) (B : Borders) (ts : List Stretch) (s : Slot) : Border :=
  written (ts.flatMap (writesA L B)) (tail L s)

/-- The border of a cell at its first slot along the line. -/
def usedB (L : Line) (B : Borders) (ts : List Stretch) (s : Slot) : Border :=
  written (ts.flatMap (writesB L B)) (L.lead s)

theorem usedA_eq (h : Sound L) (B : Borders) {ts : List Stretch} (hd : Done L 0 ts) {t : Stretch} (ht : t ∈ ts) {x : Nat}
    (hx : x < L.len) (hm : L.lead (L.a x) ∈ t.as) : usedA L B ts (L.a x) = finalBorder L B t := by
  unfold usedA
  have hl := h.a.lo x hx
  have hh := h.a.hi x hx
  have hself := h.a.const x (L.lead (L.a x)) hx (Nat.le_refl _) (by omega)
  have hw : ts.flatMap (writesA L B) =
      (ts.flatMap fun t => t.as.map fun j => (j, finalBorder L B t)).map fun p => (pred64 (p.1 + L.span (L.a p.1)), p.2) := by
    rw [List.map_flatMap]
    apply congrArg (fun f => List.flatMap f ts)
    funext t
    simp [writesA]
  have hk : tail L (L.a x) = (fun j => pred64 (j + L.span (L.a j))) (L.lead (L.a x)) := by
    simp only [tail]
    rw [hself]
  have hj : (ts.flatMap fun t => t.as.map fun j => (j, finalBorder L B t)).map (·.1) = ts.flatMap (·.as) := by
    rw [List.map_flatMap]
    apply congrArg (fun f => List.flatMap f ts)
    funext t
    simp [Function.comp_def]
  rw [hw, hk]
  apply written_sorted _ (fun j => pred64 (j + L.span (L.a j)))
  · rw [hj]; exact hd.as
  · exact List.mem_flatMap.2 ⟨t, ht, List.mem_map.2 ⟨_, hm, rfl⟩⟩
  · intro i hi hlt
    rw [hj] at hi
    obtain ⟨t', ht', hi⟩ := List.mem_flatMap.1 hi
    have hil := ((hd.low t' ht').1 i hi).2
    have hih := h.a.hi i hil
    have hilo := h.a.lo i hil
    simp only [pred64]
    rw [hself, if_neg (by omega), if_neg (by omega)]
    rcases Nat.lt_or_ge i (L.lead (L.a x) + L.span (L.a x)) with hq | hq
    · have := h.a.const x i hx (by omega) hq
      rw [this]
      omega
    · omega

theorem usedB_eq (h : Sound L) (B : Borders) {ts : List Stretch} (hd : Done L 0 ts) {t : Stretch} (ht : t ∈ ts) {x : Nat}
    (hm : L.lead (L.b x) ∈ t.bs) : usedB L B ts (L.b x) = finalBorder L B t := by
  unfold usedB
  have hw : ts.flatMap (writesB L B) =
      (ts.flatMap fun t => t.bs.map fun j => (j, finalBorder L B t)).map fun p => (id p.1, p.2) := by
    rw [List.map_flatMap]
    apply congrArg (fun f => List.flatMap f ts)
    funext t
    simp [writesB]
  have hj : (ts.flatMap fun t => t.bs.map fun j => (j, finalBorder L B t)).map (·.1) = ts.flatMap (·.bs) := by
    rw [List.map_flatMap]
    apply congrArg (fun f => List.flatMap f ts)
    funext t
    simp [Function.comp_def]
  rw [hw]
  apply written_sorted _ id
  · rw [hj]; exact hd.bs
  · exact List.mem_flatMap.2 ⟨t, ht, List.mem_map.2 ⟨_, hm, rfl⟩⟩
  · intro i hi hlt
    simp only [id]
    omega

end Verif.Seams
