import Verif.Xml.Fuel

/-! # Documents: helper lemmas -/
namespace Verif.Xml
open Spec

/-! ## What stands around the root -/

theorem parseMisc_comment {src d s : Text} (h : CommentText src d) :
    parseMisc (src ++ s) = some ([.comment d], s) := by
  have hp := parseComment_eq h s
  obtain ⟨t, rfl⟩ := h.head
  have : (u "<!--").isPrefixOf (60 :: 33 :: 45 :: 45 :: t ++ s) = true := by simp [u_com, List.isPrefixOf]
  simp only [parseMisc, this, if_true, hp, Option.map_some]

theorem parseMisc_pi {m : Mode} [Clean m] {src s : Text} (h : PiText m src) : parseMisc (src ++ s) = some ([], s) := by
  have hp := parsePi_eq h s
  obtain ⟨t, rfl⟩ := h.head
  have h1 : (u "<!--").isPrefixOf (60 :: 63 :: t ++ s) = false := by simp [u_com, List.isPrefixOf]
  have h2 : (u "<?").isPrefixOf (60 :: 63 :: t ++ s) = true := by simp [u_pi, List.isPrefixOf]
  simp only [parseMisc, h1, h2, if_true, hp, Option.map_some, Bool.false_eq_true, if_false]

theorem space_ne {c : Rune} (h : Space c) : c ≠ 60 := by unfold Space at h; omega

theorem parseMisc_space {c : Rune} {s : Text} (h : Space c) : parseMisc (c :: s) = some ([], parseS s) := by
  have hn := space_ne h
  have h1 : (u "<!--").isPrefixOf (c :: s) = false := by simp [u_com, List.isPrefixOf, Ne.symm hn]
  have h2 : (u "<?").isPrefixOf (c :: s) = false := by simp [u_pi, List.isPrefixOf, Ne.symm hn]
  have h3 := (isS_iff c).2 h
  simp [parseMisc, h1, h2, h3, parseS]

theorem parseMisc_nil : parseMisc [] = none := by decide

theorem parseMisc_none {c : Rune} {s : Text} (h1 : c ≠ 63) (h2 : ∀ t, c :: s ≠ 33 :: 45 :: 45 :: t) :
    parseMisc (60 :: c :: s) = none := by
  have e1 : (u "<!--").isPrefixOf (60 :: c :: s) = false := by
    rw [Bool.eq_false_iff]
    intro h
    obtain ⟨t, ht⟩ := List.isPrefixOf_iff_prefix.1 h
    simp only [u_com, List.cons_append, List.nil_append, List.cons.injEq, true_and] at ht
    exact h2 t (by simp [ht.1, ht.2])
  have e2 : (u "<?").isPrefixOf (60 :: c :: s) = false := by simp [u_pi, List.isPrefixOf, Ne.symm h1]
  simp [parseMisc, e1, e2, isS]

theorem miscLoop_eq {m : Mode} [Clean m] {src rest : Text} {ns : List Node} (h : MiscText m src ns) (hr : parseMisc rest = none) :
    ∀ fuel acc, Reads (miscLoop fuel (src ++ rest) acc) (acc ++ ns) rest := by
  induction h with
  | nil =>
    intro fuel acc
    cases fuel with
    | zero => left; rfl
    | succ fuel => right; rw [miscLoop, List.nil_append, hr]; simp
  | @space c src ns hc _ ih =>
    intro fuel acc
    cases fuel with
    | zero => left; rfl
    | succ fuel =>
      have e : miscLoop (fuel + 1) (c :: src ++ rest) acc = miscLoop fuel (parseS (src ++ rest)) acc := by
        rw [List.cons_append, miscLoop, parseMisc_space hc]
        simp
      rw [e]
      cases hs : src ++ rest with
      | nil =>
        have := ih fuel acc
        rw [hs] at this
        exact this
      | cons x xs =>
        by_cases hx : isS x = true
        · have := ih (fuel + 1) acc
          rw [hs, miscLoop, parseMisc_space ((isS_iff x).1 hx)] at this
          simp only [List.append_nil] at this
          rw [show parseS (x :: xs) = parseS xs by simp [parseS, hx]]
          exact this
        · have := ih fuel acc
          rw [hs] at this
          rw [parseS_id (by intro c' cs' h'; cases h'; simpa using hx)]
          exact this
  | @comment c d src ns hc _ ih =>
    intro fuel acc
    cases fuel with
    | zero => left; rfl
    | succ fuel =>
      rw [List.append_assoc, miscLoop, parseMisc_comment hc]
      have := ih fuel (acc ++ [.comment d])
      rw [List.append_assoc] at this
      exact this
  | @pi p src ns hp _ ih =>
    intro fuel acc
    cases fuel with
    | zero => left; rfl
    | succ fuel =>
      rw [List.append_assoc, miscLoop, parseMisc_pi hp]
      simpa using ih fuel acc

theorem Spec.MiscText.spaces {w src : Text} {ns : List Node} {m : Mode} (hw : Spaces w)
    (h : MiscText m src ns) : MiscText m (w ++ src) ns := by
  induction w with
  | nil => exact h
  | cons c w ih => exact .space (hw c (List.mem_cons_self ..)) (ih fun r hr => hw r (List.mem_cons_of_mem _ hr))

theorem parseMisc_some {s rest : Text} {ns : List Node} (h : parseMisc s = some (ns, rest)) :
    ∃ src, s = src ++ rest ∧ src ≠ [] ∧ ∀ more ms, MiscText .loose more ms → MiscText .loose (src ++ more) (ns ++ ms) := by
  unfold parseMisc at h
  split at h
  · cases hp : parseComment s with
    | none => rw [hp] at h; cases h
    | some p =>
      rw [hp] at h
      simp only [Option.map_some, Option.some.injEq, Prod.mk.injEq] at h
      obtain ⟨rfl, rfl⟩ := h
      obtain ⟨src, h1, h2⟩ := parseComment_some hp
      obtain ⟨t, ht⟩ := h2.head
      exact ⟨src, h1, by simp [ht], fun more ms hm => .comment h2 hm⟩
  · split at h
    · cases hp : parsePi s with
      | none => rw [hp] at h; cases h
      | some p =>
        rw [hp] at h
        simp only [Option.map_some, Option.some.injEq, Prod.mk.injEq] at h
        obtain ⟨rfl, rfl⟩ := h
        obtain ⟨src, h1, h2⟩ := parsePi_some hp
        obtain ⟨t, ht⟩ := h2.head
        exact ⟨src, h1, by simp [ht], fun more ms hm => .pi h2 hm⟩
    · split at h
      · cases h
      · rename_i c cs _ _
        split at h
        · rename_i hc
          simp only [Option.some.injEq, Prod.mk.injEq] at h
          obtain ⟨rfl, rfl⟩ := h
          obtain ⟨w, hw, hws⟩ := parseS_split cs
          have hc' := (isS_iff c).1 hc
          refine ⟨c :: w, ?_, by simp, fun more ms hm => .space hc' (hm.spaces hw)⟩
          have : parseS (c :: cs) = parseS cs := by simp [parseS, hc]
          rw [this, List.cons_append, ← hws]
        · cases h

theorem miscLoop_ok {fuel : Nat} : ∀ {s rest : Text} {acc ns : List Node}, miscLoop fuel s acc = .ok ns rest →
    ∃ src ms, s = src ++ rest ∧ ns = acc ++ ms ∧ MiscText .loose src ms := by
  induction fuel with
  | zero => intro s rest acc ns h; cases h
  | succ fuel ih =>
    intro s rest acc ns h
    rw [miscLoop] at h
    split at h
    · rename_i ns1 s1 h1
      obtain ⟨src, ms, h2, h3, h4⟩ := ih h
      obtain ⟨src', h5, -, h6⟩ := parseMisc_some h1
      exact ⟨src' ++ src, ns1 ++ ms, by rw [h5, h2]; simp, by rw [h3]; simp, h6 _ _ h4⟩
    · simp only [R.ok.injEq] at h
      obtain ⟨rfl, rfl⟩ := h
      exact ⟨[], [], rfl, by simp, .nil⟩

theorem miscLoop_fuel {fuel : Nat} : ∀ {s : Text} {acc : List Node}, s.length < fuel → miscLoop fuel s acc ≠ .out := by
  induction fuel with
  | zero => intro s acc h; omega
  | succ fuel ih =>
    intro s acc h
    rw [miscLoop]
    split
    · rename_i ns s1 h1
      obtain ⟨src, h2, h3, -⟩ := parseMisc_some h1
      have : src.length ≠ 0 := fun e => h3 (List.length_eq_zero_iff.1 e)
      rw [h2, List.length_append] at h
      exact ih (by omega)
    · intro h; cases h

/-! ## The XML declaration -/

theorem parseDeclAttr_eq {m : Mode} [Clean m] {name : String} {P : Text → Prop} {value : Text → Text} {src v s : Text} {c : Rune} {cs : Text}
    (hname : u name = c :: cs) (hc : isS c = false)
    (hval : ∀ q s, (q = 0x22 ∨ q = 0x27) → P v → value (v ++ q :: s) = v ∧ v ≠ [])
    (h : DeclAttr m name P src v) : parseDeclAttr (u name) value (src ++ s) = some (v, s) := by
  cases h with
  | @mk w₁ w₂ w₃ q _ h1 _ h2 h3 hq hp =>
    have e : w₁ ++ u name ++ w₂ ++ u "=" ++ w₃ ++ [q] ++ v ++ [q] ++ s
        = w₁ ++ (u name ++ (w₂ ++ (u "=" ++ (w₃ ++ (q :: (v ++ q :: s)))))) := by simp
    rw [e]
    have p1 : parseS (w₁ ++ (u name ++ (w₂ ++ (u "=" ++ (w₃ ++ (q :: (v ++ q :: s)))))))
        = u name ++ (w₂ ++ (u "=" ++ (w₃ ++ (q :: (v ++ q :: s))))) :=
      parseS_append h1 (by intro c' cs' h'; rw [hname] at h'; cases h'; exact hc)
    have p2 : parseS (w₂ ++ (u "=" ++ (w₃ ++ (q :: (v ++ q :: s))))) = u "=" ++ (w₃ ++ (q :: (v ++ q :: s))) :=
      parseS_append h2 (by intro c' cs' h'; cases h'; decide)
    have p3 : parseS (w₃ ++ (q :: (v ++ q :: s))) = q :: (v ++ q :: s) :=
      parseS_append h3 (by intro c' cs' h'; cases h'; rcases hq with rfl | rfl <;> decide)
    obtain ⟨hv, hne⟩ := hval q s hq hp
    have hq' : ¬ (q ≠ 34 ∧ q ≠ 39) := by omega
    have hv' : v.isEmpty = false := by simpa using hne
    unfold parseDeclAttr
    rw [p1]
    simp only [skip_append, p2, p3]
    rw [if_neg hq']
    simp only [hv, hv', Bool.false_eq_true, if_false, List.drop_left, if_true]

theorem parseDeclAttr_none {name : Text} {value : Text → Text} {s : Text} (h : skip name (parseS s) = none) :
    parseDeclAttr name value s = none := by
  simp only [parseDeclAttr, h]

theorem version_value {v : Text} (q : Rune) (s : Text) (hq : q = 0x22 ∨ q = 0x27) (h : Version v) :
    versionText (v ++ q :: s) = v ∧ v ≠ [] := by
  obtain ⟨ds, h1, h2, rfl⟩ := h
  have e : u "1." ++ ds ++ q :: s = u "1." ++ (ds ++ q :: s) := by simp
  have hp : (u "1.").isPrefixOf (u "1." ++ (ds ++ q :: s)) = true := by simp
  have hd : (u "1." ++ (ds ++ q :: s)).drop 2 = ds ++ q :: s := by simp [show u "1." = [49, 46] from rfl]
  have ht := (takeWhile_append_stop (p := fun r => 48 ≤ r && r ≤ 57) (a := ds) (s := q :: s)
    (fun r hr => by simpa using h2 r hr) (by intro c cs hc; cases hc; rcases hq with rfl | rfl <;> decide)).1
  have hne : ds.isEmpty = false := by simpa using h1
  refine ⟨?_, by simp [show u "1." = [49, 46] from rfl]⟩
  rw [e]
  unfold versionText
  rw [if_pos hp, hd]
  simp only [ht, hne, Bool.false_eq_true, if_false]

theorem encoding_value {v : Text} (q : Rune) (s : Text) (hq : q = 0x22 ∨ q = 0x27) (h : Encoding v) :
    encodingText (v ++ q :: s) = v ∧ v ≠ [] := by
  obtain ⟨c, cs, rfl, h1, h2⟩ := h
  have hl : ∀ r, Letter r → isAlpha r = true := by
    intro r hr
    simp only [isAlpha, Bool.or_eq_true, Bool.and_eq_true, decide_eq_true_eq]
    exact hr
  have ht := (takeWhile_append_stop
    (p := fun r => isAlpha r || (48 ≤ r && r ≤ 57) || r == 95 || r == 46 || r == 45) (a := cs) (s := q :: s)
    (fun r hr => by
      rcases h2 r hr with h | h | h | h | h
      · simp [hl r h]
      · simp [h.1, h.2]
      · simp [h]
      · simp [h]
      · simp [h]) (by intro c cs hc; cases hc; rcases hq with rfl | rfl <;> decide)).1
  refine ⟨?_, by simp⟩
  simp only [encodingText, List.cons_append, hl c h1, if_true, ht]

theorem standalone_value {v : Text} (q : Rune) (s : Text) (hq : q = 0x22 ∨ q = 0x27) (h : Standalone v) :
    standaloneText (v ++ q :: s) = v ∧ v ≠ [] := by
  rcases h with rfl | rfl
  · refine ⟨?_, by decide⟩
    unfold standaloneText
    rw [if_pos (by simp)]
  · refine ⟨?_, by decide⟩
    unfold standaloneText
    rw [if_neg, if_pos (by simp)]
    simp [show u "yes" = [121, 101, 115] from rfl, show u "no" = [110, 111] from rfl]

theorem skip_decl_end {w s : Text} {c : Rune} {p : Text} (hw : Spaces w) (hc : c ≠ 63) :
    skip (c :: p) (parseS (w ++ (u "?>" ++ s))) = none := by
  have : parseS (w ++ (u "?>" ++ s)) = u "?>" ++ s := parseS_append hw (by intro c' cs' h'; cases h'; decide)
  rw [this]
  exact skip_head_ne (Ne.symm hc)

theorem parseXmlDecl_eq {m : Mode} [Clean m] {src s : Text} {d : Decl} (h : DeclText m src d) (hne : src ≠ []) :
    parseXmlDecl (src ++ s) = some (d, s) := by
  cases h with
  | none => exact absurd rfl hne
  | @some sv v se e ss st w hv he hs hw =>
    have e0 : u "<?xml" ++ sv ++ se ++ ss ++ w ++ u "?>" ++ s
        = u "<?xml" ++ (sv ++ (se ++ (ss ++ (w ++ (u "?>" ++ s))))) := by simp
    rw [e0]
    have p1 := parseDeclAttr_eq (s := se ++ (ss ++ (w ++ (u "?>" ++ s)))) (value := versionText)
      (show u "version" = 118 :: u "ersion" from rfl) (by decide) version_value hv
    have p3 : optAttr (parseDeclAttr (u "standalone") standaloneText (ss ++ (w ++ (u "?>" ++ s))))
        (ss ++ (w ++ (u "?>" ++ s))) = (st, w ++ (u "?>" ++ s)) := by
      cases hs with
      | no =>
        have : skip (u "standalone") (parseS (w ++ (u "?>" ++ s))) = none :=
          skip_decl_end (c := 115) (p := u "tandalone") hw (by decide)
        rw [List.nil_append, parseDeclAttr_none this]
        rfl
      | yes h =>
        rw [parseDeclAttr_eq (s := w ++ (u "?>" ++ s)) (value := standaloneText)
          (show u "standalone" = 115 :: u "tandalone" from rfl) (by decide) standalone_value h]
        rfl
    have p2 : optAttr (parseDeclAttr (u "encoding") encodingText (se ++ (ss ++ (w ++ (u "?>" ++ s)))))
        (se ++ (ss ++ (w ++ (u "?>" ++ s)))) = (e, ss ++ (w ++ (u "?>" ++ s))) := by
      cases he with
      | yes h =>
        rw [parseDeclAttr_eq (s := ss ++ (w ++ (u "?>" ++ s))) (value := encodingText)
          (show u "encoding" = 101 :: u "ncoding" from rfl) (by decide) encoding_value h]
        rfl
      | no =>
        rw [List.nil_append]
        have : skip (u "encoding") (parseS (ss ++ (w ++ (u "?>" ++ s)))) = none := by
          cases hs with
          | no =>
            rw [List.nil_append]
            exact skip_decl_end (c := 101) (p := u "ncoding") hw (by decide)
          | yes h =>
            cases h with
            | @mk w₁ w₂ w₃ q _ h1 _ _ _ _ _ =>
              simp only [List.append_assoc]
              rw [parseS_append h1 (by intro c' cs' h'; cases h'; decide)]
              exact skip_head_ne (show (115 : Rune) ≠ 101 by decide)
        rw [parseDeclAttr_none this]
        rfl
    have p4 : parseS (w ++ (u "?>" ++ s)) = u "?>" ++ s := parseS_append hw (by intro c' cs' h'; cases h'; decide)
    unfold parseXmlDecl
    rw [skip_append]
    simp only [p1, p2, p3, p4, skip_append, Option.map_some]

/-! ## The document type -/

theorem attValueLoop_quoted {q : Rune} {v rest : Text} (h1 : q ∉ v) (h2 : 38 ∉ v) :
    ∀ fuel sb, Reads (attValueLoop q fuel (v ++ q :: rest) sb) (sb ++ v) rest := by
  induction v with
  | nil =>
    intro fuel sb
    cases fuel with
    | zero => left; rfl
    | succ fuel => right; simp [attValueLoop]
  | cons c v ih =>
    intro fuel sb
    cases fuel with
    | zero => left; rfl
    | succ fuel =>
      have hc : c ≠ q := fun e => h1 (by simp [e])
      have hc' : c ≠ 38 := fun e => h2 (by simp [e])
      rw [List.cons_append, attValueLoop]
      simp only [if_neg hc, parseReference_none hc']
      simpa using ih (fun h => h1 (List.mem_cons_of_mem _ h)) (fun h => h2 (List.mem_cons_of_mem _ h)) fuel (sb ++ [c])

theorem parseAttValue_quoted {src v rest : Text} (h : Quoted src v) (fuel : Nat) :
    Reads (parseAttValue fuel (src ++ rest)) v rest := by
  cases h with
  | @mk q _ hq h1 h2 =>
    have e : [q] ++ v ++ [q] ++ rest = q :: (v ++ q :: rest) := by simp
    rw [e]
    simp only [parseAttValue]
    rw [if_neg (by omega)]
    simpa using attValueLoop_quoted h1 h2 fuel []

theorem Spec.Quoted.head {src v : Text} (h : Quoted src v) : ∃ c t, src = c :: t ∧ isS c = false := by
  cases h with
  | @mk q _ hq _ _ => exact ⟨q, _, rfl, by rcases hq with rfl | rfl <;> decide⟩

theorem parseS_quoted {w src v s : Text} (hw : Spaces w) (h : Quoted src v) :
    parseS (w ++ (src ++ s)) = src ++ s := by
  obtain ⟨c, t, rfl, hc⟩ := h.head
  exact parseS_append hw (by intro c' cs' h'; cases h'; exact hc)

theorem parseDoctype_eq {src : Text} {d : Node} (h : DoctypeText src d) (s : Text) (fuel : Nat) :
    Reads (parseDoctype fuel (src ++ s)) d s := by
  cases h with
  | @mk w₁ n x p v w₂ h1 h1' hn hx h2 =>
    have hgt : ∀ {w : Text}, Spaces w → parseS (w ++ (u ">" ++ s)) = u ">" ++ s := fun hw => parseS_tail hw (.inl rfl)
    have e : u "<!DOCTYPE" ++ w₁ ++ n ++ x ++ w₂ ++ u ">" ++ s
        = u "<!DOCTYPE" ++ (w₁ ++ (n ++ (x ++ (w₂ ++ (u ">" ++ s))))) := by simp
    rw [e]
    have p1 : parseS (w₁ ++ (n ++ (x ++ (w₂ ++ (u ">" ++ s))))) = n ++ (x ++ (w₂ ++ (u ">" ++ s))) := by
      obtain ⟨c, cs, hc, hs⟩ := hn.1
      refine parseS_append h1 ?_
      intro c' cs' h'
      rw [hc] at h'
      cases h'
      exact not_start_space ((isNameStart_iff c).2 hs)
    have hsp : ∀ {w t : Text}, Spaces w → w ≠ [] → Ends (w ++ t) := by
      intro w t hw hne
      cases w with
      | nil => exact absurd rfl hne
      | cons c w => exact ends_of_not (space_not_name (hw c (List.mem_cons_self ..)))
    have p2 : Ends (x ++ (w₂ ++ (u ">" ++ s))) := by
      cases hx with
      | none =>
        cases w₂ with
        | nil => exact ends_of_not (by decide)
        | cons c w => exact ends_of_not (space_not_name (h2 c (List.mem_cons_self ..)))
      | system g1 g1' => simp only [List.append_assoc]; exact hsp g1 g1'
      | pub g1 g1' => simp only [List.append_assoc]; exact hsp g1 g1'
    unfold parseDoctype
    simp only [skip_append, p1, parseName_eq hn p2]
    cases hx with
    | none =>
      right
      have e1 : parseExternalId fuel (u ">" ++ s) = (.err, []) := by
        have k1 : skip (u "SYSTEM") (u ">" ++ s) = none := skip_head_ne (show (62 : Rune) ≠ 83 by decide)
        have k2 : skip (u "PUBLIC") (u ">" ++ s) = none := skip_head_ne (show (62 : Rune) ≠ 80 by decide)
        simp only [parseExternalId, k1, k2]
      rw [List.nil_append, hgt h2, e1]
      simp only [hgt (w := []) (by simp [Spaces]), List.nil_append] at *
      have e2 : parseS (u ">" ++ s) = u ">" ++ s := hgt (w := []) (by simp [Spaces])
      rw [e2, skip_append]
    | @system g₁ g₂ sq _ k1 _ k2 _ hq =>
      have e1 : parseS (g₁ ++ u "SYSTEM" ++ g₂ ++ sq ++ (w₂ ++ (u ">" ++ s)))
          = u "SYSTEM" ++ (g₂ ++ (sq ++ (w₂ ++ (u ">" ++ s)))) := by
        simp only [List.append_assoc]
        exact parseS_append k1 (by intro c' cs' h'; cases h'; decide)
      rw [e1]
      simp only [parseExternalId, skip_append, parseS_quoted k2 hq]
      rcases parseAttValue_quoted (rest := w₂ ++ (u ">" ++ s)) hq fuel with h | h
      · left; rw [h]
      · right; rw [h]; simp only [hgt h2, skip_append]
    | @pub g₁ g₂ g₃ sq _ sp _ k1 _ k2 _ k3 _ hp hq =>
      have e1 : parseS (g₁ ++ u "PUBLIC" ++ g₂ ++ sp ++ g₃ ++ sq ++ (w₂ ++ (u ">" ++ s)))
          = u "PUBLIC" ++ (g₂ ++ (sp ++ (g₃ ++ (sq ++ (w₂ ++ (u ">" ++ s)))))) := by
        simp only [List.append_assoc]
        exact parseS_append k1 (by intro c' cs' h'; cases h'; decide)
      have k0 : skip (u "SYSTEM") (u "PUBLIC" ++ (g₂ ++ (sp ++ (g₃ ++ (sq ++ (w₂ ++ (u ">" ++ s))))))) = none :=
        skip_head_ne (show (80 : Rune) ≠ 83 by decide)
      rw [e1]
      simp only [parseExternalId, k0, skip_append, parseS_quoted k2 hp]
      rcases parseAttValue_quoted (rest := g₃ ++ (sq ++ (w₂ ++ (u ">" ++ s)))) hp fuel with h | h
      · left; rw [h]
      · rw [h]
        simp only [parseS_quoted k3 hq]
        rcases parseAttValue_quoted (rest := w₂ ++ (u ">" ++ s)) hq fuel with h | h
        · left; rw [h]
        · right; rw [h]; simp only [hgt h2, skip_append]

/-! ## Documents -/

/-- The prolog, up to a text `es` that begins like an element. -/
theorem parseProlog_eq {m : Mode} [Clean m] {ds ms ts es : Text} {decl : Decl} {b t : List Node} (hd : DeclText m ds decl)
    (hm : MiscText m ms b) (ht : DoctypePart m ts t) (hel : ∃ c cs, es = 60 :: c :: cs ∧ isNameStart c = true)
    (hx : (∃ x, ds ++ (ms ++ (ts ++ es)) = u "<?xml" ++ x) → decl.version ≠ none) (fuel : Nat) :
    Reads (parseProlog fuel (ds ++ (ms ++ (ts ++ es)))) (decl, b ++ t) es := by
  obtain ⟨c, cs, hes, hc⟩ := hel
  have hne := nameStart_ne hc
  have hmisc : parseMisc es = none := by
    rw [hes]
    exact parseMisc_none hne.2.1 (by intro t ht; exact hne.1 (List.cons.inj ht).1)
  -- the declaration
  have hstart : (if (u "<?xml").isPrefixOf (ds ++ (ms ++ (ts ++ es))) then
      parseXmlDecl (ds ++ (ms ++ (ts ++ es))) else some ({}, ds ++ (ms ++ (ts ++ es))))
      = some (decl, ms ++ (ts ++ es)) := by
    by_cases hds : ds = []
    · subst hds
      have hdecl : decl = {} := by
        generalize hz : ([] : Text) = z at hd
        cases hd with
        | none => rfl
        | some =>
          have := congrArg List.length hz
          simp [show u "<?xml" = [60, 63, 120, 109, 108] from rfl] at this
      subst hdecl
      rw [if_neg]
      · rfl
      · intro hp
        obtain ⟨t, ht⟩ := List.isPrefixOf_iff_prefix.1 hp
        exact hx ⟨t, ht.symm⟩ rfl
    · rw [if_pos, parseXmlDecl_eq hd hds]
      cases hd with
      | none => exact absurd rfl hds
      | some =>
        rw [List.isPrefixOf_iff_prefix]
        simp only [List.append_assoc]
        exact ⟨_, rfl⟩
  have hndt : parseDoctype fuel es = .err := by
    have : skip (u "<!DOCTYPE") es = none := by
      rw [hes]
      have : u "<!DOCTYPE" = 60 :: 33 :: u "DOCTYPE" := rfl
      rw [this, skip_cons]
      exact skip_head_ne hne.1
    simp only [parseDoctype, this]
  unfold parseProlog
  simp only [hstart]
  cases ht with
  | none =>
    rw [List.nil_append]
    rcases miscLoop_eq hm hmisc fuel [] with h | h
    · left; rw [h]
    · right
      rw [h]
      simp only [hndt, List.nil_append, List.append_nil]
  | @some dsrc dt more dns hdt hmore =>
    have hdm : parseMisc (dsrc ++ more ++ es) = none := by
      cases hdt with
      | mk =>
        simp only [List.append_assoc]
        exact parseMisc_none (by decide) (by intro t ht; cases ht)
    rcases miscLoop_eq hm hdm fuel [] with h | h
    · left; rw [h]
    · rw [h]
      simp only [List.append_assoc]
      rcases parseDoctype_eq hdt (more ++ es) fuel with h | h
      · left; rw [h]
      · rw [h]
        simp only
        rcases miscLoop_eq hmore hmisc fuel [] with h | h
        · left; rw [h]
        · right; rw [h]; simp

theorem parseDocument_eq {m : Mode} [Clean m] {ns : Option Text} {src : Text} {d : Doc} (h : DocumentText m ns src d)
    (hx : (∃ t, src = u "<?xml" ++ t) → d.decl.version ≠ none) (fuel : Nat) :
    Reads (parseDocument fuel ns src) d [] := by
  cases h with
  | @mk ds decl ms b ts t es e as a hd hm ht he ha =>
    have hel : ∃ c cs, es ++ as = 60 :: c :: cs ∧ isNameStart c = true := by
      obtain ⟨c, cs, rfl, hc⟩ := he.head
      exact ⟨c, cs ++ as, rfl, hc⟩
    have e0 : ds ++ ms ++ ts ++ es ++ as = ds ++ (ms ++ (ts ++ (es ++ as))) := by simp
    rw [e0] at hx ⊢
    unfold parseDocument
    rcases parseProlog_eq hd hm ht hel hx fuel with h | h
    · left; rw [h]
    · rw [h]
      simp only
      rcases parseElement_eq he (Agree.make ns) as fuel with h | h
      · left; rw [h]
      · rw [h]
        simp only
        have := miscLoop_eq ha parseMisc_nil fuel []
        rw [List.append_nil] at this
        rcases this with h | h
        · left; rw [h]
        · right; rw [h]; simp

end Verif.Xml
