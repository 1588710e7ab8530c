import Verif.Dom.Finite
import Verif.Doc.Spec
/-! Loops over links against child lists. -/
namespace Verif.Doc
open Verif.Dom

/-- The result is `v` with enough fuel. -/
def Ends (g : Nat → Option α) (v : α) : Prop := ∃ N, ∀ f, N ≤ f → g f = some v

theorem Ends.bind {g : Nat → Option α} {v : α} (hg : Ends g v) {g' : Nat → α → Option β} {w : β}
    (hw : Ends (fun f => g' f v) w) : Ends (fun f => (g f).bind (g' f)) w := by
  obtain ⟨N, hN⟩ := hg
  obtain ⟨M, hM⟩ := hw
  exact ⟨max N M, fun f hf => by simp [hN f (by omega), hM f (by omega)]⟩

theorem firstWhere_seg {h : Heap} {q : Nat → Bool} {p : Nat} : ∀ {l : List Nat} {a}, DSeg h p a l none →
    ∀ f, l.length ≤ f → firstWhere h q f l.head? = some (l.find? q)
  | [], _, _, f, _ => by cases f <;> simp [firstWhere]
  | c :: cs, a, hs, f, hf => by
    simp only [DSeg, Option.or_none] at hs
    cases f with
    | zero => simp at hf
    | succ f =>
      simp only [List.head?_cons, firstWhere, List.find?_cons, hs.2.2.1]
      rw [firstWhere_seg hs.2.2.2 f (by simpa using hf)]
      cases q c <;> simp

theorem firstWhere_ends {h k} (r : Rep h k) (q : Nat → Bool) (p : Nat) :
    Ends (fun f => firstWhere h q f (h p).firstChild) ((k p).find? q) :=
  ⟨(k p).length, fun f hf => by rw [r.first p]; exact firstWhere_seg (r.seg p) f hf⟩

theorem find_first {q : Nat → Bool} {P : Nat → Prop} (hq : ∀ x, q x = true ↔ P x) {l : List Nat} {x : Nat} :
    First P l x ↔ l.find? q = some x := by
  simp only [First, List.find?_eq_some_iff_append, ← hq]
  grind

theorem isElement_iff (x : Kind) : isElement x = true ↔ ∃ ns name, x = .element ns name := by
  cases x <;> simp [isElement]

theorem root_iff {k : Kids} {info : Info} {doc r : Nat} :
    RootIs k info doc r ↔ (k doc).find? (fun c => isElement (info c)) = some r :=
  find_first fun x => isElement_iff (info x)

theorem html_iff (name : String) (x : Kind) : (x == htmlTag name) = true ↔ HtmlElement name x := by
  simp [htmlTag, HtmlElement, htmlNs]

mutual
theorem getText_ends {h k} (r : Rep h k) {info : Info} (hp : Proper k info) : ∀ {n l}, PreOrder k n l →
    (∀ m ∈ l, ∀ s, info m ≠ .comment s) → info n ≠ .document →
    Ends (fun f => getText h info f n) (l.flatMap fun m => chars (info m))
  | n, _, .node (l := l) hl => by
    intro hc hd
    cases hi : info n with
    | document => exact absurd hi hd
    | comment s => exact absurd hi (hc n (by simp) s)
    | element ns name =>
      have := textSiblings_ends r hp hl (r.seg n) (fun m hm => hc m (by simp [hm]))
        (fun c hcm hcd => hp.top c hcd n hcm)
      obtain ⟨N, hN⟩ := this
      refine ⟨N + 1, fun f hf => ?_⟩
      cases f with
      | zero => omega
      | succ f => simp [getText, hi, r.first n, hN f (by omega), chars]
    | text s =>
      have hk : k n = [] := Classical.byContradiction fun hk => by
        rcases hp.leaf n hk with h | ⟨_, _, h⟩ <;> rw [hi] at h <;> cases h
      rw [hk] at hl; cases hl
      refine ⟨1, fun f hf => ?_⟩
      cases f with
      | zero => omega
      | succ f => simp [getText, hi, chars]
    | doctype =>
      have hk : k n = [] := Classical.byContradiction fun hk => by
        rcases hp.leaf n hk with h | ⟨_, _, h⟩ <;> rw [hi] at h <;> cases h
      rw [hk] at hl; cases hl
      refine ⟨1, fun f hf => ?_⟩
      cases f with
      | zero => omega
      | succ f => simp [getText, hi, chars]
theorem textSiblings_ends {h k} (r : Rep h k) {info : Info} (hp : Proper k info) : ∀ {cs l p a}, PreOrders k cs l →
    DSeg h p a cs none → (∀ m ∈ l, ∀ s, info m ≠ .comment s) → (∀ c ∈ cs, info c ≠ .document) →
    Ends (fun f => textSiblings h info f cs.head?) (l.flatMap fun m => chars (info m))
  | _, _, _, _, .nil => fun _ _ _ => ⟨0, fun f _ => by cases f <;> simp [textSiblings]⟩
  | _, _, _, _, .cons (c := c) (cs := cs) h1 h2 => by
    intro hs hc hd
    simp only [DSeg, Option.or_none] at hs
    obtain ⟨N, hN⟩ := getText_ends r hp h1 (fun m hm => hc m (by simp [hm])) (hd c (by simp))
    obtain ⟨M, hM⟩ := textSiblings_ends r hp h2 hs.2.2.2 (fun m hm => hc m (by simp [hm])) (fun x hx => hd x (by simp [hx]))
    refine ⟨max N M + 1, fun f hf => ?_⟩
    cases f with
    | zero => omega
    | succ f =>
      simp [textSiblings, hs.2.2.1, hN f (by omega), hM f (by omega)]
end

theorem getText_childText {h k} (r : Rep h k) {info : Info} {n : Nat} {ns name} (hi : info n = .element ns name)
    (ht : ∀ c ∈ k n, ∃ s, info c = .text s) : Ends (fun f => getText h info f n) (childText k info n) := by
  have key : ∀ cs a, DSeg h n a cs none → (∀ c ∈ cs, ∃ s, info c = .text s) →
      Ends (fun f => textSiblings h info f cs.head?) (cs.flatMap fun c => chars (info c)) := by
    intro cs
    induction cs with
    | nil => exact fun a _ _ => ⟨0, fun f _ => by cases f <;> simp [textSiblings]⟩
    | cons c cs ih =>
      intro a hs hc
      simp only [DSeg, Option.or_none] at hs
      obtain ⟨M, hM⟩ := ih _ hs.2.2.2 (fun x hx => hc x (by simp [hx]))
      obtain ⟨s, hs'⟩ := hc c (by simp)
      refine ⟨M + 2, fun f hf => ?_⟩
      obtain ⟨f, rfl⟩ : ∃ g, f = g + 2 := ⟨f - 2, by omega⟩
      simp [textSiblings, hs.2.2.1, hM (f + 1) (by omega), getText, hs', chars]
  obtain ⟨N, hN⟩ := key _ _ (r.seg n) ht
  refine ⟨N + 1, fun f hf => ?_⟩
  cases f with
  | zero => omega
  | succ f => simp [getText, hi, r.first n, hN f (by omega), childText]

mutual
theorem PreOrder.unique {k : Kids} : ∀ {n l l'}, PreOrder k n l → PreOrder k n l' → l = l'
  | _, _, _, .node h1, .node h2 => by rw [PreOrders.unique h1 h2]
theorem PreOrders.unique {k : Kids} : ∀ {cs l l'}, PreOrders k cs l → PreOrders k cs l' → l = l'
  | _, _, _, .nil, .nil => rfl
  | _, _, _, .cons a b, .cons c d => by rw [PreOrder.unique a c, PreOrders.unique b d]
end

theorem iter_ends {h k} (r : Rep h k) (g : Grounded k) {n : Nat} {l : List Nat} (hl : PreOrder k n l) :
    Ends (fun f => iterDepthFirst h f n) l := by
  obtain ⟨ht, hh⟩ := g
  obtain ⟨N, l', e, p⟩ := iter_spec r hh (ht n + 1) n (by omega)
  obtain rfl := PreOrder.unique hl p
  exact ⟨N, fun f hf => (iter_mono' h hf).1 _ _ e⟩

/-! Owner documents -/

theorem owner_chain {h k} (r : Rep h k) {info : Info} {n l} (hc : Chain k n l) :
    Ends (fun f => ownerDocument h info f n) (l.find? fun a => info a == .document) := by
  induction hc with
  | @root n hr =>
    have : (h n).parent = none := by
      cases hp : (h n).parent with
      | none => rfl
      | some p => exact absurd (r.mem _ _ hp) (hr p)
    exact ⟨0, fun f _ => by simp only [ownerDocument, this]; cases f <;> simp [owner]⟩
  | @up n p l hp hl ih =>
    obtain ⟨N, hN⟩ := ih
    refine ⟨N + 1, fun f hf => ?_⟩
    cases f with
    | zero => omega
    | succ f =>
      have hpar := (r.parent_iff n p).2 hp
      have h2 := hN f (by omega)
      simp only [ownerDocument] at h2
      simp only [ownerDocument, hpar, owner, List.find?_cons, h2]
      by_cases hd : info p = .document
      · simp [hd]
      · have : (info p == Kind.document) = false := by simpa using hd
        simp [hd, this]

/-! Styling -/

/-- What styling does below `n` when `n` has the values `s`. -/
inductive From (e : Engine S) (k : Kids) (info : Info) (rs : S) (n : Nat) (s : S) : Nat → S → Prop
  | root : From e k info rs n s n s
  | child {p c : Nat} {v : S} : From e k info rs n s p v → c ∈ k p → isElement (info c) = true →
      From e k info rs n s c (e.own rs v c)

theorem From.sub {e : Engine S} {k info rs n s m v} (hf : From e k info rs n s m v) : InSubtree k n m := by
  induction hf with
  | root => exact .root
  | child _ hc _ ih => exact .child ih hc

theorem From.head {e : Engine S} {k info rs n s m v} (hf : From e k info rs n s m v) :
    (m = n ∧ v = s) ∨ ∃ c ∈ k n, isElement (info c) = true ∧ From e k info rs c (e.own rs s c) m v := by
  induction hf with
  | root => exact .inl ⟨rfl, rfl⟩
  | @child p c v _ hc hi ih =>
    rcases ih with ⟨rfl, rfl⟩ | ⟨c', hc', hi', hf⟩
    · exact .inr ⟨c, hc, hi, .root⟩
    · exact .inr ⟨c', hc', hi', .child hf hc hi⟩

/-- `generate` would add this one. -/
def wants (e : Engine S) (rs s : S) (n : Nat) (t : PType) : Bool :=
  (match t with | .marker => e.item s | _ => true) &&
  match e.content (e.pseudo rs s n t) with
  | .none => false
  | .normal => t == .marker
  | .other => true

/-- What becomes of one element. -/
def At (e : Engine S) (rs : S) (st st' : Styles S) (m : Nat) (v : S) : Prop :=
  st'.style m = some v ∧
    ∀ t, st'.pseudo m t = if wants e rs v m t then some (e.pseudo rs v m t) else st.pseudo m t

def Same (st st' : Styles S) (m : Nat) : Prop := st'.style m = st.style m ∧ ∀ t, st'.pseudo m t = st.pseudo m t

theorem generate_style (e : Engine S) (rs s : S) (n : Nat) (t : PType) (st : Styles S) :
    (generate e rs s n t st).style = st.style := by
  simp only [generate]; split
  · rfl
  · split <;> rfl

theorem generate_pseudo (e : Engine S) (rs s : S) (n : Nat) (t : PType) (st : Styles S) (m : Nat) (u : PType) :
    (generate e rs s n t st).pseudo m u =
      if m = n ∧ u = t ∧ (match e.content (e.pseudo rs s n t) with
        | .none => false | .normal => t == .marker | .other => true) = true
      then some (e.pseudo rs s n t) else st.pseudo m u := by
  simp only [generate]
  cases hc : e.content (e.pseudo rs s n t) <;> cases t <;> simp

theorem styleOne_at (e : Engine S) (rs s : S) (n : Nat) (st : Styles S) : At e rs st (styleOne e rs s n st) n s := by
  refine ⟨?_, fun t => ?_⟩
  · simp only [styleOne, generate_style]
    split <;> simp [generate_style, upd]
  · simp only [styleOne]
    cases hi : e.item s <;> cases t <;> simp [generate_pseudo, wants, hi]

theorem styleOne_same (e : Engine S) (rs s : S) (n : Nat) (st : Styles S) {m : Nat} (hm : m ≠ n) :
    Same st (styleOne e rs s n st) m := by
  refine ⟨?_, fun t => ?_⟩
  · simp only [styleOne, generate_style]
    split <;> simp [generate_style, upd, hm]
  · simp only [styleOne]
    cases hi : e.item s <;> simp [generate_pseudo, hm]

theorem At.before {e : Engine S} {rs} {a b c : Styles S} {m v} (h1 : Same a b m) (h2 : At e rs b c m v) : At e rs a c m v :=
  ⟨h2.1, fun t => by rw [h2.2, h1.2]⟩

theorem At.after {e : Engine S} {rs} {a b c : Styles S} {m v} (h1 : At e rs a b m v) (h2 : Same b c m) : At e rs a c m v :=
  ⟨by rw [h2.1, h1.1], fun t => by rw [h2.2, h1.2]⟩

theorem Same.trans {a b c : Styles S} {m} (h1 : Same a b m) (h2 : Same b c m) : Same a c m :=
  ⟨by rw [h2.1, h1.1], fun t => by rw [h2.2, h1.2]⟩

theorem style_ends (e : Engine S) {h k} (r : Rep h k) {ht : Nat → Nat} (hh : ∀ p, ∀ c ∈ k p, ht c < ht p)
    (info : Info) (rs : S) : ∀ N n, ht n < N → ∀ s st, ∃ st',
      Ends (fun f => styleElement e h info rs f s n st) st' ∧
      (∀ m v, From e k info rs n s m v → At e rs st st' m v) ∧ (∀ m, ¬ InSubtree k n m → Same st st' m) := by
  intro N
  induction N with
  | zero => intro n hn; omega
  | succ N ih =>
    intro n hn s st
    have key : ∀ (cs : List Nat) (a : Option Nat), DSeg h n a cs none → (∀ c ∈ cs, c ∈ k n) → cs.Nodup → ∀ st,
        ∃ st', Ends (fun f => styleKids e h info rs f s cs.head? st) st' ∧
          (∀ c ∈ cs, isElement (info c) = true → ∀ m v, From e k info rs c (e.own rs s c) m v → At e rs st st' m v) ∧
          (∀ m, (∀ c ∈ cs, ¬ InSubtree k c m) → Same st st' m) := by
      intro cs
      induction cs with
      | nil =>
        intro a _ _ _ st
        exact ⟨st, ⟨0, fun f _ => by cases f <;> simp [styleKids]⟩, by simp, fun _ _ => ⟨rfl, fun _ => rfl⟩⟩
      | cons c cs ihc =>
        intro a hs hsub hnd st
        simp only [DSeg, Option.or_none] at hs
        have hcn := hsub c (by simp)
        have hdis : ∀ m, InSubtree k c m → ∀ d ∈ cs, ¬ InSubtree k d m := fun m hm d hd hdm =>
          sibling_disjoint r hh hcn (hsub d (by simp [hd])) (fun e => (List.nodup_cons.1 hnd).1 (e ▸ hd)) hm hdm
        have hsub' : ∀ x ∈ cs, x ∈ k n := fun x hx => hsub x (by simp [hx])
        by_cases hi : isElement (info c) = true
        · obtain ⟨st1, ⟨F1, e1⟩, a1, s1⟩ := ih c (by have := hh n c hcn; omega) (e.own rs s c) st
          obtain ⟨st2, ⟨F2, e2⟩, a2, s2⟩ := ihc (some c) hs.2.2.2 hsub' (List.nodup_cons.1 hnd).2 st1
          refine ⟨st2, ⟨max F1 F2 + 1, fun f hf => ?_⟩, ?_, ?_⟩
          · cases f with
            | zero => omega
            | succ f => simp [styleKids, hi, hs.2.2.1, e1 f (by omega), e2 f (by omega)]
          · intro d hd hdi m v hf
            rcases List.mem_cons.1 hd with rfl | hd
            · exact (a1 m v hf).after (s2 m (hdis m hf.sub))
            · exact At.before (s1 m fun hcm => hdis m hcm d hd hf.sub) (a2 d hd hdi m v hf)
          · intro m hm
            exact (s1 m (hm c (by simp))).trans (s2 m fun d hd => hm d (by simp [hd]))
        · obtain ⟨st2, ⟨F2, e2⟩, a2, s2⟩ := ihc (some c) hs.2.2.2 hsub' (List.nodup_cons.1 hnd).2 st
          refine ⟨st2, ⟨F2 + 1, fun f hf => ?_⟩, ?_, ?_⟩
          · cases f with
            | zero => omega
            | succ f => simp [styleKids, hi, hs.2.2.1, e2 f (by omega)]
          · intro d hd hdi m v hf
            rcases List.mem_cons.1 hd with rfl | hd
            · exact absurd hdi hi
            · exact a2 d hd hdi m v hf
          · intro m hm
            exact s2 m fun d hd => hm d (by simp [hd])
    obtain ⟨st', ⟨F, e1⟩, a1, s1⟩ := key (k n) none (r.seg n) (fun _ h => h) (r.nodup n) (styleOne e rs s n st)
    refine ⟨st', ⟨F + 1, fun f hf => ?_⟩, ?_, ?_⟩
    · cases f with
      | zero => omega
      | succ f => simp [styleElement, r.first n, e1 f (by omega)]
    · intro m v hf
      rcases hf.head with ⟨rfl, rfl⟩ | ⟨c, hc, hi, hg⟩
      · refine (styleOne_at e rs v m st).after (s1 m fun c hc hcm => ?_)
        have := hcm.height hh
        have := hh m c hc
        omega
      · refine At.before (styleOne_same e rs s n st ?_) (a1 c hc hi m v hg)
        intro hmn
        have hg' := hg.sub
        rw [hmn] at hg'
        have := hg'.height hh
        have := hh n c hc
        omega
    · intro m hm
      refine (styleOne_same e rs s n st (fun e => hm (e ▸ .root))).trans (s1 m fun c hc hcm => hm (hcm.ofChild hc))

end Verif.Doc
