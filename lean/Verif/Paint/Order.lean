import Verif.Paint.Once

/-! # What the sort of a stack makes of the passes -/

namespace Verif.Paint

theorem place_front (p : Piece) (l : List Piece) (h : ∀ q ∈ l, p.z ≤ q.z) : place p l = p :: l := by
  cases l with
  | nil => rfl
  | cons q l => simp [place, h q (by simp)]

theorem place_left (p : Piece) (a r : List Piece) (h : ∀ q ∈ r, p.z ≤ q.z) :
    place p (a ++ r) = place p a ++ r := by
  induction a with
  | nil => simp [place_front p r h, place]
  | cons q a ih =>
    simp only [List.cons_append, place]
    split
    · simp
    · simp [ih]

theorem place_right (p : Piece) (a r : List Piece) (h : ∀ q ∈ a, q.z < p.z) :
    place p (a ++ r) = a ++ place p r := by
  induction a with
  | nil => rfl
  | cons q a ih =>
    have h1 : ¬ p.z ≤ q.z := by have := h q (by simp); omega
    simp only [List.cons_append, place, h1, if_false]
    rw [ih fun x hx => h x (by simp [hx])]

theorem mem_arrange {p : Piece} {l : List Piece} : p ∈ arrange l ↔ p ∈ l := (arrange_perm l).mem_iff

/-- A stack draws what is below level 0 first, then what is at level 0 in the order it was added. -/
theorem arrange_split (l : List Piece) :
    arrange l = arrange (l.filter (·.z < 0)) ++ l.filter (·.z = 0) ++ arrange (l.filter (0 < ·.z)) := by
  induction l with
  | nil => rfl
  | cons p l ih =>
    have hn : ∀ q ∈ arrange (l.filter (·.z < 0)), q.z < 0 := by
      intro q hq; rw [mem_arrange] at hq; simpa using (List.mem_filter.1 hq).2
    have hz : ∀ q ∈ l.filter (·.z = 0), q.z = 0 := by
      intro q hq; simpa using (List.mem_filter.1 hq).2
    have hp : ∀ q ∈ arrange (l.filter (0 < ·.z)), 0 < q.z := by
      intro q hq; rw [mem_arrange] at hq; simpa using (List.mem_filter.1 hq).2
    rw [arrange, ih]
    have : p.z < 0 ∨ p.z = 0 ∨ 0 < p.z := by omega
    rcases this with h | h | h
    · have h1 : ¬ p.z = 0 := by omega
      have h2 : ¬ 0 < p.z := by omega
      simp only [List.filter_cons, h, h1, h2, decide_true, decide_false, if_true, Bool.false_eq_true,
        if_false, arrange]
      rw [List.append_assoc, place_left, List.append_assoc]
      intro q hq
      rcases List.mem_append.1 hq with hq | hq
      · have := hz q hq; omega
      · have := hp q hq; omega
    · have h1 : ¬ p.z < 0 := by omega
      have h2 : ¬ 0 < p.z := by omega
      simp only [List.filter_cons, h, h1, h2, decide_true, decide_false, if_true, Bool.false_eq_true,
        if_false]
      rw [List.append_assoc, place_right, place_front]
      · simp [h]
      · intro q hq
        rcases List.mem_append.1 hq with hq | hq
        · have := hz q hq; omega
        · have := hp q hq; omega
      · intro q hq; have := hn q hq; omega
    · have h1 : ¬ p.z = 0 := by omega
      have h2 : ¬ p.z < 0 := by omega
      simp only [List.filter_cons, h, h1, h2, decide_true, decide_false, if_true, Bool.false_eq_true,
        if_false, arrange]
      rw [place_right]
      intro q hq
      rcases List.mem_append.1 hq with hq | hq
      · have := hn q hq; omega
      · have := hz q hq; omega

/-! ## Sorting fragments by their levels -/

def placeF (f : Frag) : List Frag → List Frag
  | [] => [f]
  | g :: l => if rank f.look ≤ rank g.look then f :: g :: l else g :: placeF f l

def sortF : List Frag → List Frag
  | [] => []
  | f :: l => placeF f (sortF l)

theorem placeF_perm (f : Frag) (l : List Frag) : (placeF f l).Perm (f :: l) := by
  induction l with
  | nil => exact .refl _
  | cons q l ih =>
    simp only [placeF]
    split
    · exact .refl _
    · exact (List.Perm.cons q ih).trans (.swap ..)

theorem sortF_perm (l : List Frag) : (sortF l).Perm l := by
  induction l with
  | nil => exact .refl _
  | cons p l ih => exact (placeF_perm p _).trans (ih.cons p)

theorem placeF_rising (f : Frag) (l : List Frag) (h : Rising l) : Rising (placeF f l) := by
  induction l with
  | nil => simp [placeF, Rising]
  | cons g l ih =>
    simp only [Rising, List.pairwise_cons] at h
    simp only [placeF]
    split
    · rename_i hfg
      simp only [Rising, List.pairwise_cons]
      refine ⟨fun x hx => ?_, h⟩
      rcases List.mem_cons.1 hx with rfl | hx
      · exact hfg
      · exact Int.le_trans hfg (h.1 x hx)
    · simp only [Rising, List.pairwise_cons]
      refine ⟨fun x hx => ?_, ih h.2⟩
      rcases List.mem_cons.1 ((placeF_perm f l).mem_iff.1 hx) with rfl | hx
      · omega
      · exact h.1 x hx

theorem sortF_rising (l : List Frag) : Rising (sortF l) := by
  induction l with
  | nil => exact List.Pairwise.nil
  | cons f l ih => exact placeF_rising f _ ih

theorem placeF_filter (f : Frag) (l : List Frag) (z : Int) (h : Rising l) :
    (placeF f l).filter (fun g => decide (rank g.look = z)) =
      (f :: l).filter (fun g => decide (rank g.look = z)) := by
  induction l with
  | nil => rfl
  | cons g l ih =>
    simp only [Rising, List.pairwise_cons] at h
    simp only [placeF]
    split
    · rfl
    · rename_i hfg
      rw [List.filter_cons, ih h.2]
      simp only [List.filter_cons]
      by_cases h1 : rank g.look = z
      · have h2 : ¬ rank f.look = z := by omega
        simp [h1, h2]
      · simp [h1]

theorem sortF_filter (l : List Frag) (z : Int) :
    (sortF l).filter (fun g => decide (rank g.look = z)) =
      l.filter (fun g => decide (rank g.look = z)) := by
  induction l with
  | nil => rfl
  | cons f l ih =>
    rw [sortF, placeF_filter _ _ _ (sortF_rising l)]
    simp only [List.filter_cons, ih]

/-- The node that a stacking fragment gives. -/
def node (f : Frag) : Piece := ⟨rank f.look, paint f⟩

theorem node_eq (f : Frag) : node f = establish f.look (context f) := by
  rw [node, paint_eq]; rfl

theorem sortF_node (l : List Frag) : (sortF l).map node = arrange (l.map node) := by
  have hp : ∀ f l, (placeF f l).map node = place (node f) (l.map node) := by
    intro f l
    induction l with
    | nil => rfl
    | cons g l ih =>
      simp only [placeF, List.map_cons, place]
      simp only [show (node f).z = rank f.look from rfl, show (node g).z = rank g.look from rfl]
      split
      · simp
      · simp [ih]
  induction l with
  | nil => rfl
  | cons f l ih => simp only [sortF, List.map_cons, arrange, hp, ih]

/-- A rearrangement of the images comes from a rearrangement of the things. -/
theorem perm_lift {α β : Type _} (f : α → β) {m n : List β} (h : m.Perm n) :
    ∀ s : List α, n = s.map f → ∃ s' : List α, s'.Perm s ∧ s'.map f = m := by
  induction h with
  | nil => intro s hs; exact ⟨s, .refl _, hs.symm⟩
  | cons x _ ih =>
    intro s hs
    cases s with
    | nil => simp at hs
    | cons y s =>
      simp only [List.map_cons, List.cons.injEq] at hs
      obtain ⟨s', h1, h2⟩ := ih s hs.2
      exact ⟨y :: s', h1.cons y, by simp [h2, hs.1]⟩
  | swap x y l =>
    intro s hs
    match s, hs with
    | a :: b :: s, hs =>
      simp only [List.map_cons, List.cons.injEq] at hs
      exact ⟨b :: a :: s, .swap .., by simp [hs]⟩
  | trans _ _ ih1 ih2 =>
    intro s hs
    obtain ⟨s', h1, h2⟩ := ih2 s hs
    obtain ⟨s'', h3, h4⟩ := ih1 s' h2.symm
    exact ⟨s'', h3.trans h1, h4⟩

/-! ## The passes -/

theorem isolates_whole {b : Look} (h : settled b = true) : b.isolates = whole b := by
  simp only [settled, Bool.or_eq_true, Bool.and_eq_true, Bool.not_eq_true'] at h
  unfold Look.isolates whole
  rcases h with h | h
  · rw [h]; cases b.zIndex <;> cases b.translucent <;> cases b.transform <;> cases b.clip <;> rfl
  · have : b.zIndex = none := by simpa using h.1
    rw [this]
    cases b.positioned <;> cases b.translucent <;> cases b.transform <;> cases b.clip <;> rfl

theorem plain_z {b : Look} (h : b.isolates = false) : b.zIndex = none := by
  simp only [Look.isolates, Bool.or_eq_false_iff] at h
  simpa using h.1.1.1

theorem own_level {b : Look} (h : b.isolates = false) (k l) : ∀ x ∈ own k b l, x.z = 0 := by
  intro x hx
  unfold own at hx
  split at hx
  · simp at hx
  · split at hx
    · rcases List.mem_append.1 hx with hx | hx
      · unfold decorate at hx
        split at hx
        · simp [h] at hx; simp [hx]
        · simp at hx
      · unfold fillIn at hx
        split at hx <;> simp at hx <;> simp [hx]
    · split at hx
      · simp at hx
      · simp at hx; simp [hx]
    · simp at hx

theorem stack_level (l : List Piece) (h : ∀ x ∈ l, x.z = 0) : stack l = inks l := by
  have hs : arrange l = l := by
    induction l with
    | nil => rfl
    | cons p l ih =>
      rw [arrange, ih fun x hx => h x (by simp [hx]), place_front]
      intro q hq
      rw [h p (by simp), h q (by simp [hq])]
      exact Int.le_refl 0
  rw [stack, hs]; rfl

/-- What a fragment that does not stack gives of its own. -/
theorem own_alone {k b kids} (hi : b.isolates = false) (h : fair (.mk k b kids) = true) :
    inks (own k b (svgKids kids)) = alone (.mk k b kids) := by
  unfold alone
  cases k with
  | box =>
    simp only [fair, Bool.and_eq_true] at h
    simp [Kind.isSvgRoot, own_box b h.1]
  | svgRoot flat =>
    simp only [Kind.isSvgRoot, if_true, paint_eq, establish, context, List.append_nil, Frag.look]
    rw [stack_level _ (own_level hi _ _), effects_asks, asks_calm hi, underAll_eq, underAll_nil]
  | group => simp [fair] at h
  | shape => simp [fair] at h

/-- The blocks' and the inlines' pass. -/
def Layered (p : Look → Bool) (inl : Bool) : Prop :=
  ∀ b : Look, p b = (b.zIndex.isNone && decide (b.inline = inl) && !b.positioned)

theorem blocks_layered : Layered blocks false := by
  intro b; simp [blocks]

theorem inlines_layered : Layered inlines true := by
  intro b; simp [inlines]

theorem fairKids_cons {slot f rest} (h : fairKids (.cons slot f rest) = true) (ho : slot ≠ .oof) :
    settled f.look = true ∧ fair f = true ∧ (f.look.positioned = false → slot = .flow) := by
  simp only [fairKids, Bool.and_eq_true, Bool.or_eq_true, decide_eq_true_eq] at h
  rcases h.1 with h | h
  · exact absurd h ho
  · refine ⟨h.1.1, h.2, fun hp => ?_⟩
    rcases h.1.2 with h' | h'
    · exact h'
    · rw [hp] at h'; cases h'

theorem fairKids_rest {slot f rest} (h : fairKids (.cons slot f rest) = true) :
    fairKids rest = true := by
  simp only [fairKids, Bool.and_eq_true] at h
  exact h.2

theorem fair_kids {k b kids} (h : fair (.mk k b kids) = true) (hk : k.isSvgRoot = false) :
    fairKids kids = true ∧ k = .box := by
  cases k with
  | box => simp only [fair, Bool.and_eq_true] at h; exact ⟨h.2, rfl⟩
  | svgRoot => simp [Kind.isSvgRoot] at hk
  | group => simp [fair] at h
  | shape => simp [fair] at h

mutual
theorem layer_pass {p inl} (hp : Layered p inl) : ∀ kids, fairKids kids = true →
    (∀ x ∈ pass p kids, x.z = 0) ∧ inks (pass p kids) = layer inl kids
  | .nil, _ => by simp [pass, layer, inks]
  | .cons slot f rest, h => by
    have ih := layer_pass hp rest (fairKids_rest h)
    rw [pass, layer, inks_append, ih.2]
    suffices hs : (∀ x ∈ (if slot = .oof then []
        else if f.look.isolates then
          (if p f.look then [establish f.look (context f)] else [])
        else if f.look.positioned then (if p f.look then context f else [])
        else flow p (slot = .put) f), x.z = 0) ∧
        inks (if slot = .oof then []
        else if f.look.isolates then
          (if p f.look then [establish f.look (context f)] else [])
        else if f.look.positioned then (if p f.look then context f else [])
        else flow p (slot = .put) f) = _ from
      ⟨fun x hx => (List.mem_append.1 hx).elim (hs.1 x) (ih.1 x), by rw [hs.2]⟩
    by_cases ho : slot = .oof
    · simp [ho, inks]
    · have ⟨h1, h2, h3⟩ := fairKids_cons h ho
      rw [← isolates_whole h1]
      have hpf := hp f.look
      simp only [ho, if_false, decide_false, Bool.false_or, hpf]
      cases hpos : f.look.positioned
      · have hz : f.look.zIndex = none := by
          simp only [settled, hpos, Bool.false_or, Bool.and_eq_true] at h1
          simpa using h1.1
        simp only [hz, Bool.false_eq_true, if_false]
        cases hi : f.look.isolates
        · rw [h3 hpos]
          simpa using flow_layer hp f h2 hi hpos
        · by_cases hl : f.look.inline = inl
          · simp [hl, inks, paint_eq, establish, Look.level, hz]
          · simp [hl, inks]
      · cases hi : f.look.isolates <;> simp [inks]
theorem flow_layer {p inl} (hp : Layered p inl) : ∀ f, fair f = true → f.look.isolates = false →
    f.look.positioned = false →
    (∀ x ∈ flow p false f, x.z = 0) ∧ inks (flow p false f) = layerIn inl f
  | .mk k b kids, h, hi, hpos => by
    have hi : b.isolates = false := hi
    have hpos : b.positioned = false := hpos
    rw [flow, layerIn, inks_append, hp b, plain_z hi, hpos]
    simp only [Option.isNone_none, Bool.true_and, Bool.not_false, Bool.and_true, decide_eq_true_eq]
    have h1 : (∀ x ∈ (if b.inline = inl then own k b (svgKids kids) else []), x.z = 0) ∧
        inks (if b.inline = inl then own k b (svgKids kids) else []) =
          if b.inline = inl then alone (.mk k b kids) else [] := by
      split
      · exact ⟨own_level hi _ _, own_alone hi h⟩
      · simp [inks]
    have h2 : (∀ x ∈ (if k.isSvgRoot = true then [] else pass p kids), x.z = 0) ∧
        inks (if k.isSvgRoot = true then [] else pass p kids) =
          if k.isSvgRoot = true then [] else layer inl kids := by
      cases hk : k.isSvgRoot
      · simpa using layer_pass hp kids (fair_kids h hk).1
      · simp [inks]
    rw [h1.2, h2.2]
    exact ⟨fun x hx => (List.mem_append.1 hx).elim (h1.1 x) (h2.1 x), rfl⟩
end

mutual
/-- The stacking fragments that a pass comes upon without going into a positioned one. -/
def direct : Kids → List Frag
  | .nil => []
  | .cons slot f rest =>
    (if slot = .oof then []
     else if whole f.look then (if rank f.look ≠ 0 then [f] else [])
     else directIn f) ++ direct rest
def directIn : Frag → List Frag
  | .mk k b kids => if b.positioned || k.isSvgRoot then [] else direct kids
end

/-- The first and the last pass. -/
def Apart (p : Look → Bool) : Prop := ∀ b : Look, p b = true → rank b ≠ 0

theorem negative_iff (b : Look) : negative b = true ↔ rank b < 0 := decide_eq_true_iff
theorem positive_iff (b : Look) : positive b = true ↔ 0 < rank b := decide_eq_true_iff

theorem negative_apart : Apart negative := by
  intro b h
  have := (negative_iff b).1 h
  omega

theorem positive_apart : Apart positive := by
  intro b h
  have := (positive_iff b).1 h
  omega

theorem Apart.plain {p} (hp : Apart p) {b : Look} (h : b.zIndex = none) : p b = false := by
  cases hb : p b
  · rfl
  · exact absurd (by simp [rank, h]) (hp b hb)

mutual
theorem apart_pass {p} (hp : Apart p) : ∀ kids, fairKids kids = true →
    pass p kids = ((direct kids).filter fun g => p g.look).map node
  | .nil, _ => by simp [pass, direct]
  | .cons slot f rest, h => by
    rw [pass, direct, List.filter_append, List.map_append, apart_pass hp rest (fairKids_rest h)]
    congr 1
    by_cases ho : slot = .oof
    · simp [ho]
    · have ⟨h1, h2, h3⟩ := fairKids_cons h ho
      rw [← isolates_whole h1]
      simp only [ho, if_false]
      cases hi : f.look.isolates
      · simp only [Bool.false_eq_true, if_false]
        cases hpos : f.look.positioned
        · rw [h3 hpos]
          simpa using apart_flow hp f h2 hi hpos
        · obtain ⟨k, b, kids⟩ := f
          have hpos : b.positioned = true := hpos
          simp [hp.plain (plain_z hi), directIn, hpos]
      · simp only [if_true]
        cases hb : p f.look
        · by_cases hr : rank f.look = 0 <;> simp [hb, hr]
        · simp [hp _ hb, hb, node_eq]
theorem apart_flow {p} (hp : Apart p) : ∀ f, fair f = true → f.look.isolates = false →
    f.look.positioned = false →
    flow p false f = ((directIn f).filter fun g => p g.look).map node
  | .mk k b kids, h, hi, hpos => by
    have hi : b.isolates = false := hi
    have hpos : b.positioned = false := hpos
    rw [flow, directIn, hp.plain (plain_z hi), hpos]
    cases hk : k.isSvgRoot
    · simpa using apart_pass hp kids (fair_kids h hk).1
    · simp
end

theorem floating_settled {b : Look} (h : settled b = true) : floating b = false := by
  simp only [settled, Bool.or_eq_true, Bool.and_eq_true, Bool.not_eq_true'] at h
  simp only [floating]
  rcases h with h | h
  · simp [h]
  · simp [h.2]

mutual
theorem floating_pass : ∀ kids, fairKids kids = true → pass floating kids = []
  | .nil, _ => by simp [pass]
  | .cons slot f rest, h => by
    rw [pass, floating_pass rest (fairKids_rest h), List.append_nil]
    by_cases ho : slot = .oof
    · simp [ho]
    · have ⟨h1, h2, h3⟩ := fairKids_cons h ho
      have hf := floating_settled h1
      simp only [ho, if_false, hf, Bool.false_eq_true]
      split
      · rfl
      · split
        · rfl
        · rename_i hpos
          have hpos : f.look.positioned = false := by simpa using hpos
          rw [h3 hpos]
          simpa using floating_flow f h1 h2
theorem floating_flow : ∀ f, settled f.look = true → fair f = true → flow floating false f = []
  | .mk k b kids, hs, h => by
    have hs : settled b = true := hs
    rw [flow, floating_settled hs]
    cases hk : k.isSvgRoot
    · simpa using floating_pass kids (fair_kids h hk).1
    · simp
end

mutual
theorem direct_apart : ∀ kids, ∀ g ∈ direct kids, rank g.look ≠ 0
  | .nil, g, hg => by simp [direct] at hg
  | .cons slot f rest, g, hg => by
    rw [direct, List.mem_append] at hg
    rcases hg with hg | hg
    · split at hg
      · simp at hg
      · split at hg
        · split at hg
          · rename_i hr; simp at hg; rw [hg]; exact hr
          · simp at hg
        · exact directIn_apart f g hg
    · exact direct_apart rest g hg
theorem directIn_apart : ∀ f, ∀ g ∈ directIn f, rank g.look ≠ 0
  | .mk k b kids, g, hg => by
    rw [directIn] at hg
    split at hg
    · simp at hg
    · exact direct_apart kids g hg
end

/-- The nodes at level 0, and the others. -/
def level0 (l : List Piece) : List Piece := l.filter (·.z = 0)
def others (l : List Piece) : List Piece := l.filter (·.z ≠ 0)

theorem level0_append (a b) : level0 (a ++ b) = level0 a ++ level0 b := List.filter_append ..
theorem others_append (a b) : others (a ++ b) = others a ++ others b := List.filter_append ..

theorem level0_all {l : List Piece} (h : ∀ x ∈ l, x.z = 0) : level0 l = l :=
  List.filter_eq_self.2 fun x hx => by simp [h x hx]
theorem others_none {l : List Piece} (h : ∀ x ∈ l, x.z = 0) : others l = [] :=
  List.filter_eq_nil_iff.2 fun x hx => by simp [h x hx]
theorem level0_none {l : List Piece} (h : ∀ x ∈ l, x.z ≠ 0) : level0 l = [] :=
  List.filter_eq_nil_iff.2 fun x hx => by simp [h x hx]
theorem others_all {l : List Piece} (h : ∀ x ∈ l, x.z ≠ 0) : others l = l :=
  List.filter_eq_self.2 fun x hx => by simp [h x hx]

theorem nodes_apart {p : Look → Bool} (kids) :
    ∀ x ∈ ((direct kids).filter fun g => p g.look).map node, x.z ≠ 0 := by
  intro x hx
  obtain ⟨g, hg, rfl⟩ := List.mem_map.1 hx
  exact direct_apart kids g (List.mem_filter.1 hg).1

theorem direct_two (kids) :
    (((direct kids).filter fun g => negative g.look) ++
      (direct kids).filter fun g => positive g.look).Perm (direct kids) := by
  have h := direct_apart kids
  generalize direct kids = l at h
  induction l with
  | nil => simp
  | cons f l ih =>
    have ih := ih fun g hg => h g (by simp [hg])
    have hf := h f (by simp)
    by_cases hn : rank f.look < 0
    · have h1 : negative f.look = true := (negative_iff _).2 hn
      have h2 : positive f.look = false := by
        rw [← Bool.not_eq_true, positive_iff]; omega
      simpa [List.filter_cons, h1, h2] using ih
    · have h1 : negative f.look = false := by
        rw [← Bool.not_eq_true, negative_iff]; omega
      have h2 : positive f.look = true := by
        rw [positive_iff]; omega
      simp only [List.filter_cons, h1, h2, if_true, Bool.false_eq_true, if_false]
      exact List.perm_middle.trans (ih.cons f)

/-- The passes of a box over its children. -/
def six (kids : Kids) : List Piece :=
  pass negative kids ++ pass blocks kids ++ pass floating kids ++ pass inlines kids ++
    pass zero kids ++ pass positive kids

theorem six_level0 (kids) (h : fairKids kids = true) :
    inks (level0 (six kids)) = layer false kids ++ layer true kids ++ inks (level0 (pass zero kids)) := by
  simp only [six, level0_append, inks_append]
  have hb := layer_pass blocks_layered kids h
  have hi := layer_pass inlines_layered kids h
  rw [apart_pass negative_apart kids h, apart_pass positive_apart kids h, floating_pass kids h,
    level0_none (nodes_apart kids), level0_none (nodes_apart kids), level0_all hb.1, level0_all hi.1,
    hb.2, hi.2]
  simp [inks, level0]

theorem six_others (kids) (h : fairKids kids = true) :
    (others (six kids)) = ((direct kids).filter fun g => negative g.look).map node ++
      others (pass zero kids) ++ ((direct kids).filter fun g => positive g.look).map node := by
  simp only [six, others_append]
  have hb := layer_pass blocks_layered kids h
  have hi := layer_pass inlines_layered kids h
  rw [apart_pass negative_apart kids h, apart_pass positive_apart kids h, floating_pass kids h,
    others_all (nodes_apart kids), others_all (nodes_apart kids), others_none hb.1, others_none hi.1]
  simp [others]

theorem zero_whole (b : Look) : zero b = (b.positioned && decide (rank b = 0)) :=
  Bool.and_comm ..

mutual
theorem zero_pass : ∀ kids, fairKids kids = true →
    inks (level0 (pass zero kids)) = middle kids ∧
    (others (pass zero kids) ++ (direct kids).map node).Perm ((stacked kids).map node)
  | .nil, _ => by simp [pass, middle, direct, stacked, inks, level0, others]
  | .cons slot f rest, h => by
    have ih := zero_pass rest (fairKids_rest h)
    rw [pass, middle, direct, stacked, level0_append, inks_append, ih.1, others_append,
      List.map_append, List.map_append]
    suffices hs : inks (level0 (if slot = .oof then []
        else if f.look.isolates then
          (if zero f.look then [establish f.look (context f)] else [])
        else if f.look.positioned then (if zero f.look then context f else [])
        else flow zero (slot = .put) f)) = _ ∧
        (others (if slot = .oof then []
        else if f.look.isolates then
          (if zero f.look then [establish f.look (context f)] else [])
        else if f.look.positioned then (if zero f.look then context f else [])
        else flow zero (slot = .put) f) ++ (List.map node (if slot = .oof then []
          else if whole f.look then (if rank f.look ≠ 0 then [f] else [])
          else directIn f))).Perm (List.map node (if slot = .oof then []
          else if whole f.look then (if rank f.look ≠ 0 then [f] else [])
          else stackedIn f)) by
      refine ⟨by rw [hs.1], ?_⟩
      have h1 := hs.2
      have h2 := ih.2
      rw [List.perm_iff_count] at h1 h2 ⊢
      intro a
      have h1 := h1 a
      have h2 := h2 a
      simp only [List.count_append] at h1 h2 ⊢
      omega
    by_cases ho : slot = .oof
    · simp [ho, inks, level0, others]
    · have ⟨h1, h2, h3⟩ := fairKids_cons h ho
      rw [← isolates_whole h1]
      simp only [ho, if_false]
      cases hi : f.look.isolates
      · simp only [Bool.false_eq_true, if_false]
        obtain ⟨k, b, kids⟩ := f
        have hi : b.isolates = false := hi
        have hz := plain_z hi
        by_cases hpos : b.positioned = false
        · have hh := zero_flow (.mk k b kids) h2 hi hpos
          rw [h3 hpos]
          simpa [Frag.look, hpos] using hh
        · have hpos : b.positioned = true := by simpa using hpos
          have : zero b = true := by rw [zero_whole, hpos]; simp [rank, hz]
          simp only [Frag.look, this, if_true, directIn, hpos, Bool.true_or, middleIn, stackedIn]
          have := zero_context (.mk k b kids) h2 hi
          simpa [stackedIn, Frag.kind, Frag.kids] using this
      · simp only [if_true, zero_whole]
        by_cases hr : rank f.look = 0
        · cases hpos : f.look.positioned
          · simp [hr, inks, level0, others]
          · have hl : f.look.level = 0 := hr
            simp [hr, inks, level0, others, paint_eq, establish, hl]
        · simp [hr, inks, level0, others]
theorem zero_flow : ∀ f, fair f = true → f.look.isolates = false → f.look.positioned = false →
    inks (level0 (flow zero false f)) = middleIn f ∧
    (others (flow zero false f) ++ (directIn f).map node).Perm ((stackedIn f).map node)
  | .mk k b kids, h, hi, hpos => by
    have hi : b.isolates = false := hi
    have hpos : b.positioned = false := hpos
    have hz : zero b = false := by simp [zero, hpos]
    rw [flow, middleIn, directIn, stackedIn, hz, hpos]
    cases hk : k.isSvgRoot
    · simpa using zero_pass kids (fair_kids h hk).1
    · simp [inks, level0, others]
theorem zero_context : ∀ f, fair f = true → f.look.isolates = false →
    inks (level0 (context f)) = (alone f ++ if f.kind.isSvgRoot then [] else
      layer false f.kids ++ layer true f.kids ++ middle f.kids) ∧
    (others (context f)).Perm ((stackedIn f).map node)
  | .mk k b kids, h, hi => by
    have hi : b.isolates = false := hi
    rw [context, stackedIn, level0_append, others_append, inks_append,
      level0_all (own_level hi _ _), others_none (own_level hi _ _), own_alone hi h]
    simp only [Frag.kind, Frag.kids]
    by_cases hk : k.isSvgRoot = false
    · have hkids := (fair_kids h hk).1
      have ih := zero_pass kids hkids
      have h0 := six_level0 kids hkids
      have h1 := six_others kids hkids
      simp only [six] at h0 h1
      simp only [hk, Bool.false_eq_true, if_false]
      rw [h0, h1, ih.1]
      refine ⟨rfl, ?_⟩
      refine List.Perm.trans ?_ ih.2
      have hd := (direct_two kids).map node
      rw [List.perm_iff_count] at hd ⊢
      intro a
      have hd := hd a
      simp only [List.nil_append, List.map_append, List.count_append] at hd ⊢
      omega
    · have hk : k.isSvgRoot = true := by simpa using hk
      simp [inks, level0, others, hk]
end

mutual
/-- Where no positioned box has stacking ones inside, all are come upon directly. -/
theorem shallow_direct : ∀ kids, fairKids kids = true → shallow kids = true →
    stacked kids = direct kids
  | .nil, _, _ => by simp [stacked, direct]
  | .cons slot f rest, h, hs => by
    simp only [shallow, Bool.and_eq_true, Bool.or_eq_true, decide_eq_true_eq] at hs
    rw [stacked, direct, shallow_direct rest (fairKids_rest h) hs.2]
    congr 1
    by_cases ho : slot = .oof
    · simp [ho]
    · have ⟨h1, h2, h3⟩ := fairKids_cons h ho
      simp only [ho, if_false]
      split
      · rfl
      · rename_i hw
        rcases hs.1 with (hs | hs) | hs
        · exact absurd hs ho
        · exact absurd hs hw
        · exact shallow_directIn f h2 hs
theorem shallow_directIn : ∀ f, fair f = true → shallowIn f = true → stackedIn f = directIn f
  | .mk k b kids, h, hs => by
    rw [shallowIn] at hs
    rw [stackedIn, directIn]
    cases hk : k.isSvgRoot
    · rw [hk] at hs
      cases hpos : b.positioned
      · rw [hpos] at hs
        simpa using shallow_direct kids (fair_kids h hk).1 (by simpa using hs)
      · rw [hpos] at hs
        simpa using hs
    · simp
end

end Verif.Paint
