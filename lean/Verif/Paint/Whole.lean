import Verif.Paint.Order

/-! # The order in which a stacking box draws -/

namespace Verif.Paint

theorem arrange_front (a l : List Piece) (ha : a.length ≤ 1) (h : ∀ p ∈ a, ∀ q ∈ l, p.z ≤ q.z) :
    arrange (a ++ l) = a ++ arrange l := by
  match a, ha with
  | [], _ => rfl
  | [p], _ =>
    simp only [List.cons_append, List.nil_append, arrange]
    exact place_front p _ fun q hq => h p (by simp) q (mem_arrange.1 hq)

theorem shows_split (b : Look) : shows b = backdrop b ++ foreground b := by
  simp only [shows, backdrop, foreground]
  cases b.hidden <;> simp

/-- The part of the own nodes that comes first, and the rest. -/
theorem own_split (b : Look) (hg : grounded b = true) (l : List Draw) :
    ∃ d e : List Piece, own .box b l = d ++ e ∧ d.length ≤ 1 ∧ (∀ x ∈ e, x.z = 0) ∧
      (∀ x ∈ d, x.z = if b.isolates then lowest else 0) ∧
      inks d = backdrop b ∧ inks e = foreground b := by
  by_cases hh : b.hidden = true
  · exact ⟨[], [], by simp [own, hh, inks, backdrop, foreground, shows]⟩
  · refine ⟨decorate b, fillIn b, by simp [own, hh], ?_, ?_, ?_, ?_, ?_⟩
    · unfold decorate; split <;> simp
    · intro x hx
      unfold fillIn at hx
      split at hx <;> simp at hx <;> simp [hx]
    · intro x hx
      unfold decorate at hx
      split at hx
      · simp at hx; simp [hx]
      · simp at hx
    · have := own_box { b with content := .none } (by simpa [grounded] using hg) l
      simpa [own, hh, backdrop, fillIn, decorate, decoration, Look.isolates] using this
    · have := own_box { b with coloured := false, borders := false, outline := false }
        (by simp [grounded]) l
      simpa [own, hh, foreground, fillIn, decorate, decoration, inks] using this

theorem filter_neg_others (l : List Piece) : l.filter (·.z < 0) = (others l).filter (·.z < 0) := by
  simp only [others, List.filter_filter]
  apply List.filter_congr
  intro x _
  by_cases h : x.z < 0
  · have : x.z ≠ 0 := by omega
    simp [h, this]
  · simp [h]

theorem filter_pos_others (l : List Piece) : l.filter (0 < ·.z) = (others l).filter (0 < ·.z) := by
  simp only [others, List.filter_filter]
  apply List.filter_congr
  intro x _
  by_cases h : 0 < x.z
  · have : x.z ≠ 0 := by omega
    simp [h, this]
  · simp [h]

theorem inks_node (l : List Frag) : inks (l.map node) = l.flatMap paint := by
  simp [inks, List.flatMap_map, node]

/-- Nodes that are those of some fragments in any order are drawn as these fragments are, by level. -/
theorem sorted_nodes (m : List Piece) (s : List Frag) (h : m.Perm (s.map node)) :
    ∃ A : List Frag, A.Perm s ∧ Rising A ∧ inks (arrange m) = A.flatMap paint ∧
      (m = s.map node → ∀ z, A.filter (fun g => decide (rank g.look = z)) =
        s.filter (fun g => decide (rank g.look = z))) := by
  by_cases hm : m = s.map node
  · refine ⟨sortF s, sortF_perm s, sortF_rising s, ?_, fun _ z => sortF_filter s z⟩
    rw [hm, ← sortF_node, inks_node]
  · obtain ⟨s', h1, h2⟩ := perm_lift node h s rfl
    refine ⟨sortF s', (sortF_perm s').trans h1, sortF_rising s', ?_, fun hm' => absurd hm' hm⟩
    rw [← h2, ← sortF_node, inks_node]

theorem paint_order (b : Look) (kids : Kids) (hf : fair (.mk .box b kids) = true)
    (hr : ∀ g ∈ stacked kids, lowest ≤ rank g.look)
    (hw : whole b = true ∨ ∀ g ∈ stacked kids, 0 ≤ rank g.look) :
    ∃ A B : List Frag,
      A.Perm ((stacked kids).filter (rank ·.look < 0)) ∧ Rising A ∧
      B.Perm ((stacked kids).filter (0 < rank ·.look)) ∧ Rising B ∧
      (shallow kids = true → ∀ z, (A ++ B).filter (fun g => decide (rank g.look = z)) =
        (stacked kids).filter (fun g => decide (rank g.look = z))) ∧
      paint (.mk .box b kids) = underAll (asks b)
        (backdrop b ++ A.flatMap paint ++ foreground b ++ layer false kids ++ layer true kids ++
          middle kids ++ B.flatMap paint) := by
  simp only [fair, Bool.and_eq_true] at hf
  obtain ⟨hg, hk⟩ := hf
  obtain ⟨d, e, hde, hd1, he, hdz, hd, hfe⟩ := own_split b hg (svgKids kids)
  have hz := zero_pass kids hk
  have h6 := six_others kids hk
  have h60 := six_level0 kids hk
  have hapart : ∀ g ∈ stacked kids, rank g.look ≠ 0 := by
    intro g hgm
    have : node g ∈ others (pass zero kids) ++ (direct kids).map node :=
      hz.2.mem_iff.2 (List.mem_map.2 ⟨g, hgm, rfl⟩)
    rcases List.mem_append.1 this with h | h
    · have := of_decide_eq_true (List.mem_filter.1 h).2
      exact this
    · obtain ⟨g', hg', he'⟩ := List.mem_map.1 h
      have := direct_apart kids g' hg'
      have hrr : rank g'.look = rank g.look := congrArg Piece.z he'
      rw [← hrr]; exact this
  have hso : (others (six kids)).Perm ((stacked kids).map node) := by
    rw [h6]
    refine List.Perm.trans ?_ hz.2
    have hd := (direct_two kids).map node
    rw [List.perm_iff_count] at hd ⊢
    intro a
    have hd := hd a
    simp only [List.map_append, List.count_append] at hd ⊢
    omega
  have hnz : ∀ q : Int → Bool, ((stacked kids).map node).filter (fun x => q x.z) =
      ((stacked kids).filter fun g => q (rank g.look)).map node := by
    intro q; rw [List.filter_map]; rfl
  -- the two outer groups
  obtain ⟨A, hA1, hA2, hA3, hA4⟩ := sorted_nodes ((six kids).filter (·.z < 0))
    ((stacked kids).filter (rank ·.look < 0)) (by
      rw [filter_neg_others, ← hnz (fun z => decide (z < 0))]; exact hso.filter _)
  obtain ⟨B, hB1, hB2, hB3, hB4⟩ := sorted_nodes ((six kids).filter (0 < ·.z))
    ((stacked kids).filter (0 < rank ·.look)) (by
      rw [filter_pos_others, ← hnz (fun z => decide (0 < z))]; exact hso.filter _)
  refine ⟨A, B, hA1, hA2, hB1, hB2, ?_, ?_⟩
  · intro hsh z
    have hdir := shallow_direct kids hk hsh
    have hno : others (pass zero kids) = [] := by
      have := hz.2.length_eq
      rw [hdir] at this
      simpa using this
    rw [hno, List.append_nil] at h6
    have h6 : others (six kids) = ((stacked kids).filter (rank ·.look < 0)).map node ++
        ((stacked kids).filter (0 < rank ·.look)).map node := by rw [hdir]; exact h6
    have hN : ∀ x ∈ ((stacked kids).filter (rank ·.look < 0)).map node, x.z < 0 := by
      intro x hx
      obtain ⟨g, hgm, rfl⟩ := List.mem_map.1 hx
      exact of_decide_eq_true (List.mem_filter.1 hgm).2
    have hP : ∀ x ∈ ((stacked kids).filter (0 < rank ·.look)).map node, 0 < x.z := by
      intro x hx
      obtain ⟨g, hgm, rfl⟩ := List.mem_map.1 hx
      exact of_decide_eq_true (List.mem_filter.1 hgm).2
    have hmA : (six kids).filter (·.z < 0) = ((stacked kids).filter (rank ·.look < 0)).map node := by
      have hN' := List.filter_eq_self (p := fun x : Piece => decide (x.z < 0)) |>.2 fun x hx =>
        by simpa using hN x hx
      have hP' := List.filter_eq_nil_iff (p := fun x : Piece => decide (x.z < 0)) |>.2 fun x hx =>
        by have := hP x hx; simp; omega
      rw [filter_neg_others, h6, List.filter_append, hN', hP', List.append_nil]
    have hmB : (six kids).filter (0 < ·.z) = ((stacked kids).filter (0 < rank ·.look)).map node := by
      have hP' := List.filter_eq_self (p := fun x : Piece => decide (0 < x.z)) |>.2 fun x hx =>
        by simpa using hP x hx
      have hN' := List.filter_eq_nil_iff (p := fun x : Piece => decide (0 < x.z)) |>.2 fun x hx =>
        by have := hN x hx; simp; omega
      rw [filter_pos_others, h6, List.filter_append, hN', hP', List.nil_append]
    rw [List.filter_append, hA4 hmA z, hB4 hmB z]
    simp only [List.filter_filter]
    generalize hS : stacked kids = S at hapart
    clear hS
    have : z < 0 ∨ z = 0 ∨ 0 < z := by omega
    rcases this with h | h | h
    · rw [(List.filter_eq_nil_iff (l := S) (p := fun a => decide (rank a.look = z) &&
        decide (0 < rank a.look))).2, List.append_nil]
      · apply List.filter_congr
        intro x _
        by_cases hx : rank x.look = z
        · have : rank x.look < 0 := by omega
          simp [hx, h]
        · simp [hx]
      · intro x _; simp; omega
    · rw [List.filter_eq_nil_iff.2, List.filter_eq_nil_iff.2, List.filter_eq_nil_iff.2]
      · rfl
      · intro x hx; have := hapart x hx; simp; omega
      · intro x hx; simp; omega
      · intro x hx; simp; omega
    · rw [(List.filter_eq_nil_iff (l := S) (p := fun a => decide (rank a.look = z) &&
        decide (rank a.look < 0))).2, List.nil_append]
      · apply List.filter_congr
        intro x _
        by_cases hx : rank x.look = z
        · simp [hx, h]
        · simp [hx]
      · intro x _; simp; omega
  · rw [paint_eq]
    simp only [establish, context, Kind.isSvgRoot, Frag.look, Bool.false_eq_true, if_false]
    rw [underAll_eq, effects_asks]
    congr 1
    change stack (own .box b (svgKids kids) ++ six kids) = _
    have h0 : ∀ x ∈ six kids, x.z = 0 ∨ ∃ g ∈ stacked kids, x.z = rank g.look := by
      intro x hx
      by_cases hxz : x.z = 0
      · exact .inl hxz
      · have : x ∈ others (six kids) := List.mem_filter.2 ⟨hx, by simp [hxz]⟩
        obtain ⟨g, hgm, rfl⟩ := List.mem_map.1 (hso.mem_iff.1 this)
        exact .inr ⟨g, hgm, rfl⟩
    have hmid : inks (arrange (e ++ six kids)) =
        A.flatMap paint ++ (foreground b ++ (layer false kids ++ layer true kids ++ middle kids)) ++
          B.flatMap paint := by
      rw [arrange_split]
      simp only [List.filter_append, inks_append]
      rw [(List.filter_eq_nil_iff (l := e) (p := fun x => decide (x.z < 0))).2
          fun x hx => by simp [he x hx],
        (List.filter_eq_nil_iff (l := e) (p := fun x => decide (0 < x.z))).2
          fun x hx => by simp [he x hx],
        (List.filter_eq_self (l := e) (p := fun x => decide (x.z = 0))).2
          fun x hx => by simp [he x hx], List.nil_append, List.nil_append,
        hA3, hB3, hfe, ← hz.1, ← h60]
      rfl
    change inks (arrange _) = _
    rw [hde, List.append_assoc]
    by_cases hi : b.isolates = true
    · rw [arrange_front d _ hd1, inks_append, hmid, hd]
      · simp only [List.append_assoc]
      · intro p hp q hq
        rw [hdz p hp, hi, if_pos rfl]
        rcases List.mem_append.1 hq with hq | hq
        · rw [he q hq]; decide
        · rcases h0 q hq with h | ⟨g, hgm, h⟩
          · rw [h]; decide
          · rw [h]; exact hr g hgm
    · have hneg : ∀ g ∈ stacked kids, 0 ≤ rank g.look := by
        rcases hw with hw | hw
        · exfalso
          apply hi
          simp only [whole, Bool.or_eq_true, Bool.and_eq_true] at hw
          simp only [Look.isolates, Bool.or_eq_true]
          grind
        · exact hw
      have hA : A = [] := by
        have : (stacked kids).filter (rank ·.look < 0) = [] :=
          List.filter_eq_nil_iff.2 fun g hgm => by have := hneg g hgm; simp; omega
        rw [this] at hA1
        exact hA1.eq_nil
      rw [arrange_front d _ hd1, inks_append, hmid, hd, hA]
      · simp only [List.append_assoc]
      · intro p hp q hq
        rw [hdz p hp, if_neg hi]
        rcases List.mem_append.1 hq with hq | hq
        · rw [he q hq]; decide
        · rcases h0 q hq with h | ⟨g, hgm, h⟩
          · rw [h]; decide
          · rw [h]; exact hneg g hgm

end Verif.Paint
