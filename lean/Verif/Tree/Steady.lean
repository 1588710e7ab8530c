import Verif.Tree.Keep
/-
Every insertion mode keeps the invariant of the tree builder, whatever the token.
-/
namespace Verif.Tree
open Verif.Html (Str Attr Content)

/-- The same, with the mode to come back to known. -/
def Src.later (P : Src) : Src := { P with known := True }

theorem Src.Closed.later {P : Src} (h : P.Closed) : P.later.Closed :=
  ⟨h.implied, h.img, h.bare, h.cased, h.keys, h.made, h.merged, h.nul⟩

structure RecSound (P : Src) (k : Rec) : Prop where
  accept : ∀ {s t}, Sound P s → P.tok t → Post (Sound P) (k.accept s t)
  acceptIn : ∀ {s t m}, Sound P s → P.tok t → Late P.known m s.orig → Post (Sound P) (k.acceptIn m s t)

theorem Sound.late {P : Src} {s : St} (hs : Sound P s) {m : Mode}
    (h : (!m.early && m != .text && m != .inTableText) = true) : Late P.known m s.orig := by
  simp only [Bool.and_eq_true, Bool.not_eq_true', bne_iff_ne] at h
  exact ⟨h.1.1, fun k => k.elim (fun k => hs.2.2 (Or.inl k))
    fun k => k.elim (fun e => absurd e h.1.2) fun e => absurd e h.2⟩

theorem Post.bindSt {P : Src} {β : Type} {R : β → Prop} {m : M St} {f : St → M β}
    (h1 : Post (Sound P) m) (h2 : ∀ x, Sound P x → Post R (f x)) : Post R (m >>= f) := Post.bind _ h1 h2

theorem Post.iff {α : Type} {Q : α → Prop} {c : Prop} [Decidable c] {a b : M α} (h1 : c → Post Q a)
    (h2 : ¬ c → Post Q b) : Post Q (if c then a else b) := by
  split
  case isTrue h => exact h1 h
  case isFalse h => exact h2 h

theorem Post.bindBool {β : Type} {R : β → Prop} {m : M Bool} {f : Bool → M β}
    (h2 : ∀ x, Post R (f x)) : Post R (m >>= f) := Post.any h2

theorem Post.bindCur {P : Src} {s : St} {β : Type} {R : β → Prop} {f : El → M β} (hs : Sound P s)
    (h2 : ∀ x, Valid s.data s.next x → Post R (f x)) : Post R (current s >>= f) :=
  Post.bind _ (current_mem s) fun x hx => h2 x (hs.1.1.refs.opened x hx)

theorem Post.bindEl {P : Src} (hP : P.Closed) {s : St} {ns : Ns} {n : Str} {as : List Attr} {β : Type}
    {R : β → Prop} {f : St × El → M β} (hs : Sound P s) (ht : P.tag n as)
    (h2 : ∀ s' el, Sound P s' → Valid s'.data s'.next el → el.q = ⟨ns, n⟩ → Post R (f (s', el))) :
    Post R (insertForeign s ns n as >>= f) :=
  Post.bind _ (hs.insertForeign hP ht) fun r hr => h2 r.1 r.2 hr.1 hr.2.1 hr.2.2

section
variable {P : Src}

theorem Sound.closeP {s : St} (hs : Sound P s) : Post (Sound P) (closeP s) :=
  Post.bindSt (hs.impliedEnds _) fun _ h => Post.ok (h.popUntilOneOf _)

theorem Sound.endP {s : St} (hs : Sound P s) : Post (Sound P) (endP s) :=
  Post.bindBool fun _ => Post.ite hs.closeP (Post.ok hs)

theorem Sound.startItem {ins : St → M St} (hi : ∀ s, Sound P s → Post (Sound P) (ins s)) {names : List Str}
    {s : St} (hs : Sound P s) : ∀ l, Post (Sound P) (startItem s names ins l)
  | [] => Post.ok hs
  | e :: r => by
    rw [Tree.startItem]
    exact Post.ite (Post.bindSt (hs.impliedEnds _) fun _ h => hi _ (h.popUntilOneOf _))
      (Post.ite (hi s hs) (Sound.startItem hi hs r))

theorem Sound.dropTo {s : St} (hs : Sound P s) {p : El → Bool} {e : El} {st : List El}
    (h : s.stack.dropWhile p = e :: st) : Sound P { s with stack := st } :=
  hs.stack ((List.sublist_cons_self e st).trans (h ▸ List.dropWhile_sublist p))

theorem Sound.otherEnd {s : St} (hs : Sound P s) (n : Str) : ∀ l, Post (Sound P) (otherEnd s n l)
  | [] => Post.ok hs
  | e :: r => by
    rw [Tree.otherEnd]
    refine Post.ite (Post.bindSt (hs.impliedEnds _) fun s' h => ?_) (Sound.otherEnd hs n r)
    split
    case h_1 => exact Post.error _
    case h_2 hd => exact Post.ok (h.dropTo hd)

theorem Sound.leaveBody {s : St} (hs : Sound P s) : Post (Sound P) (leaveBody s) :=
  Post.bindSt (hs.clearStack _) fun _ h => Post.bindSt h.pop fun _ h => Post.ok (h.mode rfl nofun nofun)

theorem Sound.leaveRow {s : St} (hs : Sound P s) : Post (Sound P) (leaveRow s) :=
  Post.bindSt (hs.clearStack _) fun _ h => Post.bindSt h.pop fun _ h => Post.ok (h.mode rfl nofun nofun)

theorem Sound.closeCell {s : St} (hs : Sound P s) : Post (Sound P) (closeCell s) :=
  Post.bindSt (hs.impliedEnds _) fun _ h => Post.bindSt (h.popUntilOneOf _).clearMarker
    fun _ h => Post.ok (h.mode rfl nofun nofun)

theorem Sound.closeCaption {s : St} (hs : Sound P s) : Post (fun r => Sound P r.1) (closeCaption s) :=
  Post.bindBool fun _ => Post.ite (Post.bindSt (hs.impliedEnds _) fun _ h =>
    Post.bindSt (h.popUntilOneOf _).clearMarker fun _ h => Post.ok (h.mode rfl nofun nofun)) (Post.ok hs)

theorem Sound.insertChars : ∀ (l : List Char) {s : St}, Sound P s → (∀ c ∈ l, P.char c) →
    Post (Sound P) (insertChars s l)
  | [], _, hs, _ => Post.ok hs
  | c :: r, _, hs, hc => by
    rw [Tree.insertChars]
    exact Post.bindSt (hs.insertChar (hc c (by simp))) fun _ h =>
      Sound.insertChars r h fun x hx => hc x (by simp [hx])

end

theorem Post.bindKeep {P : Src} {m : M St} {f : St → M St} (h1 : Post (Sound P) m)
    (h2 : ∀ x, Sound P x → Post (Sound P) (f x)) : Post (Sound P) (m >>= f) := Post.bind _ h1 h2

theorem Sound.ite {P : Src} {c : Prop} [Decidable c] {a b : St} (h1 : Sound P a) (h2 : Sound P b) :
    Sound P (if c then a else b) := by
  split
  · exact h1
  · exact h2

/-- One step of a proof that a mode keeps the invariant. -/
macro "steady1" hP:ident hk:ident : tactic => `(tactic| with_reducible first
    | assumption
    | exact Post.error _
    | refine Post.ok ?_
    | refine RecSound.accept $hk ?_ ?_
    | refine RecSound.acceptIn $hk ?_ ?_ (Sound.late (by with_unfolding_all assumption) rfl)
    | refine Sound.insertHtml $hP ?_ ?_
    | refine Sound.insertVoid $hP ?_ ?_
    | refine Sound.parseRaw $hP ?_ ?_
    | refine Sound.insertComment ?_ ?_
    | refine Sound.insertChar ?_ ?_
    | refine Sound.reconstruct $hP ?_
    | refine Sound.adopts $hP ?_ _
    | refine Sound.pop ?_
    | refine Sound.endP ?_
    | refine Sound.closeP ?_
    | refine Sound.closeCell ?_
    | refine Sound.leaveBody ?_
    | refine Sound.leaveRow ?_
    | refine Sound.impliedEnds ?_ _
    | refine Sound.clearStack ?_ _
    | refine Sound.clearMarker ?_
    | refine Sound.reset ?_
    | refine Sound.popUntilOneOf ?_ _
    | refine Sound.removeOpen ?_ _
    | refine Sound.removeEntry ?_ _
    | refine Sound.pushMarker ?_
    | refine Sound.ite ?_ ?_
    | refine Post.bindEl $hP (by with_unfolding_all assumption) ?_ (fun _ _ _ _ _ => ?_)
    | refine Post.bindCur (by with_unfolding_all assumption) (fun _ _ => ?_)
    | refine Post.bindKeep ?_ (fun _ _ => ?_)
    | refine Post.bindBool (fun _ => ?_)
    | refine Post.iff (fun _ => ?_) (fun _ => ?_)
    | exact Src.Closed.implied $hP _ (by with_unfolding_all decide)
    | exact Src.Closed.bare $hP _ _ (by assumption))

/-- The states it comes down to. -/
macro "settle" : tactic => `(tactic| first
    | assumption
    | exact Sound.mode (by assumption) rfl nofun nofun
    | exact Sound.mode (Sound.head (by assumption) (by assumption) (by assumption)) rfl nofun nofun
    | exact Sound.later (by assumption) rfl
    | exact Sound.pushMarker (by assumption)
    | exact Sound.form (by assumption) (by intro e he; cases he; assumption))

macro "steady" hP:ident hk:ident : tactic => `(tactic| repeat' (first | steady1 $hP $hk | settle))

section
variable {P : Src} (hP : P.Closed) {k : Rec} (hk : RecSound P k)
include hP hk

theorem beforeHead_sound {s : St} {t : Tok} (hs : Sound P s) (ht : P.tok t) :
    Post (Sound P) (beforeHead k s t) := by
  unfold beforeHead impliedHead
  cases t with
  | opens n as self =>
    have hn : P.tag n as := ht
    refine Post.iff (fun _ => by steady hP hk) fun _ => Post.iff (fun e => ?_) fun _ => by steady hP hk
    subst e
    steady hP hk
  | _ => steady hP hk

theorem leaveHead_sound {s : St} {t : Tok} (hs : Sound P s) (ht : P.tok t) :
    Post (Sound P) (leaveHead k s t) := by
  unfold leaveHead; steady hP hk

theorem inHead_sound {s : St} {t : Tok} (hs : Sound P s) (ht : P.tok t) :
    Post (Sound P) (inHead k s t) := by
  have hl := leaveHead_sound hP hk hs ht
  unfold inHead
  cases t with
  | opens n as self =>
    have hn : P.tag n as := ht
    steady hP hk
  | char c =>
    have hc : P.char c := ht
    steady hP hk
  | comment c =>
    have hc : P.comment c := ht
    steady hP hk
  | _ => steady hP hk

theorem leaveNoscript_sound {s : St} {t : Tok} (hs : Sound P s) (ht : P.tok t) :
    Post (Sound P) (leaveNoscript k s t) := by
  unfold leaveNoscript; steady hP hk

theorem inHeadNoscript_sound {s : St} {t : Tok} (hs : Sound P s) (ht : P.tok t) :
    Post (Sound P) (inHeadNoscript k s t) := by
  have hl := leaveNoscript_sound hP hk hs ht
  unfold inHeadNoscript
  cases t <;> steady hP hk

theorem impliedBody_sound {s : St} {t : Tok} (hs : Sound P s) (ht : P.tok t) :
    Post (Sound P) (impliedBody k s t) := by
  unfold impliedBody; steady hP hk

theorem Sound.reopen {s : St} (hs : Sound P s) {e : El} (he : s.head = some e) :
    Sound P { s with stack := e :: s.stack } := by
  obtain ⟨hv, hq⟩ := hs.1.1.refs.head e he
  refine hs.push hv ?_ (Or.inl hq)
  intro hp
  have := hs.parent_spot hv (by rw [hq]; decide) hp
  exact this.pos rfl

theorem afterHead_sound {s : St} {t : Tok} (hs : Sound P s) (ht : P.tok t) :
    Post (Sound P) (afterHead k s t) := by
  have hl := impliedBody_sound hP hk hs ht
  unfold afterHead
  cases t with
  | opens n as self =>
    have hn : P.tag n as := ht
    refine Post.iff (fun _ => by steady hP hk) fun _ => Post.iff (fun _ => by steady hP hk) fun _ =>
      Post.iff (fun _ => by steady hP hk) fun _ => Post.iff (fun e => ?_) fun _ => by steady hP hk
    split
    case h_1 => exact Post.error _
    case h_2 hd hh =>
      have h1 := Sound.reopen hP hk hs hh
      refine Post.bindSt (hk.acceptIn h1 ht (h1.late rfl)) fun s' hs' => ?_
      split
      case h_1 => exact Post.error _
      case h_2 => exact Post.ok (hs'.removeOpen _)
  | char c =>
    have hc : P.char c := ht
    steady hP hk
  | comment c =>
    have hc : P.comment c := ht
    steady hP hk
  | _ => steady hP hk

omit hP hk in
theorem secondOpen_low (s : St) :
    Post (fun o => ∀ e, o = some e → e ∈ s.stack.dropLast) (secondOpen s) := by
  unfold secondOpen
  split
  case h_1 => exact Post.error _
  case h_2 => exact Post.ok nofun
  case h_3 x e r hr =>
    refine Post.ok ?_
    intro y hy
    cases hy
    have : s.stack = (r.reverse ++ [e]) ++ [x] := by
      have := congrArg List.reverse hr
      simpa using this
    rw [this, List.dropLast_concat]
    simp

theorem bodyOpens_sound {s : St} {n : Str} {as : List Attr} {self : Bool} (hs : Sound P s)
    (ht : P.tok (.opens n as self)) : Post (Sound P) (bodyOpens k s n as self) := by
  have hn : P.tag n as := ht
  unfold bodyOpens
  cases hb : bodyStart n <;> dsimp only
  case html =>
    refine Post.ite (Post.ok hs) ?_
    have hm := mem_startsOf hb nofun
    cases as with
    | nil => exact Post.ok hs
    | cons a r =>
      refine Post.bindCur hs fun cur _ => Post.ok ?_
      refine hs.mergeAttrs hP hn (Or.inl ?_) _ fun _ h => h
      exact List.mem_singleton.mp hm
  case body =>
    have hm := mem_startsOf hb nofun
    refine Post.bind (fun _ => True) (fun _ _ => trivial) fun o _ => ?_
    split
    · exact Post.ok hs
    · refine Post.ite (Post.ok hs) (Post.ok ?_)
      exact Sound.mergeAttrs hP hn (Or.inr (List.mem_singleton.mp hm)) as (s := { s with framesetOk := false })
        hs fun _ h => h
  case frameset =>
    refine Post.bind _ (secondOpen_low s) fun o ho => ?_
    split
    · exact Post.ok hs
    · rename_i b
      refine Post.ite (Post.ok hs) ?_
      have hd := hs.detach (hs.1.1.refs.low b (ho b rfl))
      refine Post.bindKeep (Sound.insertHtml hP (hd.stack (List.drop_sublist _ _)) hn) fun s' hs' => ?_
      exact Post.ok (hs'.mode rfl nofun nofun)
  case li => exact Sound.startItem (fun s hs => by steady hP hk) (s := { s with framesetOk := false }) hs _
  case dd => exact Sound.startItem (fun s hs => by steady hP hk) (s := { s with framesetOk := false }) hs _
  case a =>
    have hm := mem_startsOf hb nofun
    have hne : n ≠ nm! "head" := by
      have : ∀ x ∈ startsOf .a, x ≠ nm! "head" := by decide
      exact this n hm
    have key : ∀ s, Sound P s → Post (Sound P) (do
        let s ← reconstruct s
        let __x ← insertForeign s Ns.html n as
        pushEntry __x.fst __x.snd n as) := by
      intro s hs
      refine Post.bindKeep (hs.reconstruct hP) fun s' hs' => Post.bindEl hP hs' hn fun s2 el h2 hv hq => ?_
      exact h2.pushEntry ⟨hv, hn, hq, hne⟩
    refine Post.any fun o => ?_
    cases o with
    | none => exact key s hs
    | some el =>
      refine Post.bindKeep (hs.adopts hP n) fun s' hs' => ?_
      exact key _ ((hs'.removeEntry el).removeOpen el)
  case formatting =>
    have hm := mem_startsOf hb nofun
    have hne : n ≠ nm! "head" := by
      have : ∀ x ∈ startsOf .formatting, x ≠ nm! "head" := by decide
      exact this n hm
    refine Post.bindKeep (hs.reconstruct hP) fun s' hs' => Post.bindEl hP hs' hn fun s2 el h2 hv hq => ?_
    exact h2.pushEntry ⟨hv, hn, hq, hne⟩
  case nobr =>
    have hm := mem_startsOf hb nofun
    have hne : n ≠ nm! "head" := by
      have : ∀ x ∈ startsOf .nobr, x ≠ nm! "head" := by decide
      exact this n hm
    have key : ∀ s, Sound P s → Post (Sound P) (do
        let __x ← insertForeign s Ns.html n as
        pushEntry __x.fst __x.snd n as) := by
      intro s hs
      refine Post.bindEl hP hs hn fun s2 el h2 hv hq => ?_
      exact h2.pushEntry ⟨hv, hn, hq, hne⟩
    refine Post.bindKeep (hs.reconstruct hP) fun s' hs' => Post.bindBool fun b => ?_
    refine Post.ite (Post.bindKeep (hs'.adopts hP n) fun s2 h2 => Post.bindKeep (h2.reconstruct hP)
      fun s3 h3 => key s3 h3) (key s' hs')
  case image =>
    have hm := mem_startsOf hb nofun
    refine hk.accept hs ?_
    rw [List.mem_singleton.mp hm] at hn
    exact hP.img as hn
  case svg =>
    refine Post.bindKeep (hs.reconstruct hP) fun s' hs' => Post.bindEl hP hs' (hP.keys n as hn) fun s2 el h2 hv hq => ?_
    steady hP hk
  all_goals steady hP hk

theorem bodyCloses_sound {s : St} {n : Str} {as : List Attr} {self : Bool} (hs : Sound P s)
    (ht : P.tok (.closes n as self)) : Post (Sound P) (bodyCloses k s n as self) := by
  unfold bodyCloses
  cases hb : bodyEnd n <;> dsimp only
  case form =>
    have h1 : Sound P { s with form := none } := hs.form nofun
    refine Post.ite ?_ ?_
    · split
      · exact Post.ok h1
      · steady hP hk
    · steady hP hk
  case br =>
    have hn : P.tag n as := ht (List.mem_singleton.mp (mem_endsOf hb nofun))
    steady hP hk
  case other => exact hs.otherEnd n _
  all_goals steady hP hk

theorem inBody_sound {s : St} {t : Tok} (hs : Sound P s) (ht : P.tok t) :
    Post (Sound P) (inBody k s t) := by
  unfold inBody
  cases t with
  | opens n as self => exact bodyOpens_sound hP hk hs ht
  | closes n as self => exact bodyCloses_sound hP hk hs ht
  | char c =>
    have hc : P.char c := ht
    steady hP hk
  | comment c =>
    have hc : P.comment c := ht
    steady hP hk
  | _ => steady hP hk

omit hP hk in
/-- Back to the mode before. -/
theorem Sound.back {s : St} (hs : Sound P s) (ho : s.orig.early = false) :
    Sound P { s with mode := s.orig } := ⟨hs.1, ho, fun _ => ho⟩

omit hk in
theorem text_sound {s : St} {t : Tok} (hs : Sound P s) (ht : P.tok t) (ho : s.orig.early = false) :
    Post (Sound P) (text s t) := by
  have hpop : Post (fun s' => Sound P s' ∧ s'.orig = s.orig) (pop s) := by
    intro s' e
    refine ⟨hs.pop s' e, ?_⟩
    unfold pop at e
    split at e
    · cases e
    · injection e with e; rw [← e]
  have hend : Post (Sound P) (do let s ← pop s; .ok { s with mode := s.orig }) :=
    Post.bind _ hpop fun s' h => Post.ok (h.1.back (by rw [h.2]; exact ho))
  unfold text
  cases t with
  | char c =>
    have hc : P.char c := ht
    refine hs.insertChar ?_
    split
    case isTrue e => exact hP.nul (e ▸ hc)
    case isFalse => exact hc
  | eof => exact hend
  | closes n as self => exact hend
  | _ => exact Post.ok hs

theorem fosterIn_sound {s : St} {t : Tok} (hs : Sound P s) (ht : P.tok t) :
    Post (Sound P) (fosterIn k s t) := by
  unfold fosterIn
  steady hP hk

theorem inTable_sound {s : St} {t : Tok} (hs : Sound P s) (ht : P.tok t) :
    Post (Sound P) (inTable k s t) := by
  have hf := fosterIn_sound hP hk hs ht
  unfold inTable
  cases t with
  | opens n as self =>
    have hn : P.tag n as := ht
    steady hP hk
  | char c =>
    have hc : P.char c := ht
    refine Post.bindCur hs fun cur _ => Post.ite (hk.accept ?_ ht) hf
    have h1 : Sound P { s with mode := .inTableText, orig := s.mode } := hs.later rfl
    exact ⟨⟨⟨h1.1.1.heap, h1.1.1.refs, h1.1.1.src, by intro c hc; cases hc⟩, h1.1.2⟩, h1.2⟩
  | comment c =>
    have hc : P.comment c := ht
    steady hP hk
  | _ => steady hP hk

theorem fosterChars_sound : ∀ (l : List Char) {s : St}, Sound P s → (∀ c ∈ l, P.char c) →
    Post (Sound P) (fosterChars k s l)
  | [], _, hs, _ => Post.ok hs
  | c :: r, _, hs, hc => by
    rw [fosterChars]
    exact Post.bindKeep (fosterIn_sound hP hk hs (t := .char c) (hc c (by simp))) fun _ h =>
      fosterChars_sound r h fun x hx => hc x (by simp [hx])

omit hP hk in
theorem Sound.toLater {s : St} (hs : Sound P s) (ho : s.orig.early = false) : Sound P.later s := by
  have hr := hs.1.1.refs
  have hsrc : ∀ n, n < s.next → P.later.data (s.data n) := by
    intro n hn
    have := hs.1.1.src n hn
    revert this
    cases s.data n <;> exact id
  exact ⟨⟨⟨hs.1.1.heap, ⟨hr.opened, hr.low, hr.once, fun e n as he =>
    let l := hr.listed e n as he; ⟨l.valid, l.tag, l.name, l.other⟩, hr.head, hr.form⟩, hsrc,
    hs.1.1.pending⟩, hs.1.2⟩, hs.2.1, fun _ => ho⟩

omit hP hk in
theorem Sound.ofLater {s : St} (hs : Sound P.later s) : Sound P s ∧ s.orig.early = false := by
  have hr := hs.1.1.refs
  have hsrc : ∀ n, n < s.next → P.data (s.data n) := by
    intro n hn
    have := hs.1.1.src n hn
    revert this
    cases s.data n <;> exact id
  have ho := hs.2.2 (Or.inl trivial)
  exact ⟨⟨⟨⟨hs.1.1.heap, ⟨hr.opened, hr.low, hr.once, fun e n as he =>
    let l := hr.listed e n as he; ⟨l.valid, l.tag, l.name, l.other⟩, hr.head, hr.form⟩, hsrc,
    hs.1.1.pending⟩, hs.1.2⟩, hs.2.1, fun _ => ho⟩, ho⟩

theorem inTableText_sound (hk' : RecSound P.later k) {s : St} {t : Tok} (hs : Sound P s)
    (ht : P.tok t) (ho : s.orig.early = false) : Post (Sound P) (inTableText k s t) := by
  have hl := hs.toLater ho
  have hend : ∀ t, P.tok t → Post (Sound P) (do
      let s ← if s.pending.any (!blankCr ·) then fosterChars k s s.pending
        else insertChars s s.pending
      k.accept { s with mode := s.orig } t) := by
    intro t ht
    have hgo : ∀ s', Sound P.later s' → Post (Sound P) (k.accept { s' with mode := s'.orig } t) :=
      fun s' hs' => hk.accept ((Sound.ofLater hs').1.back (Sound.ofLater hs').2) ht
    exact Post.ite
      (Post.bind _ (fosterChars_sound hP.later hk' _ hl hl.1.1.pending) hgo)
      (Post.bind _ (Sound.insertChars _ hl hl.1.1.pending) hgo)
  cases t with
  | char c =>
    have hc : P.char c := ht
    unfold inTableText
    refine Post.ite (Post.ok hs) (Post.ok ?_)
    refine ⟨⟨⟨hs.1.1.heap, hs.1.1.refs, hs.1.1.src, ?_⟩, hs.1.2⟩, hs.2⟩
    intro x hx
    rw [List.mem_append, List.mem_singleton] at hx
    rcases hx with hx | rfl
    · exact hs.1.1.pending x hx
    · exact hc
  | _ => exact hend _ ht

theorem inCaption_sound {s : St} {t : Tok} (hs : Sound P s) (ht : P.tok t) :
    Post (Sound P) (inCaption k s t) := by
  have hc : Post (Sound P) (do
      let (s, closed) ← closeCaption s
      if closed then k.accept s t else .ok s) :=
    Post.bind _ hs.closeCaption fun r hr => Post.ite (hk.accept hr ht) (Post.ok hr)
  have hc' : Post (Sound P) (do
      let (s, _) ← closeCaption s
      .ok s) := Post.bind _ hs.closeCaption fun r hr => Post.ok hr
  unfold inCaption
  cases t <;> steady hP hk

theorem leaveColgroup_sound {s : St} {t : Tok} (hs : Sound P s) (ht : P.tok t) :
    Post (Sound P) (leaveColgroup k s t) := by
  unfold leaveColgroup; steady hP hk

theorem inColumnGroup_sound {s : St} {t : Tok} (hs : Sound P s) (ht : P.tok t) :
    Post (Sound P) (inColumnGroup k s t) := by
  have hl := leaveColgroup_sound hP hk hs ht
  unfold inColumnGroup
  cases t with
  | opens n as self =>
    have hn : P.tag n as := ht
    steady hP hk
  | char c =>
    have hc : P.char c := ht
    steady hP hk
  | comment c =>
    have hc : P.comment c := ht
    steady hP hk
  | _ => steady hP hk

theorem inTableBody_sound {s : St} {t : Tok} (hs : Sound P s) (ht : P.tok t) :
    Post (Sound P) (inTableBody k s t) := by
  unfold inTableBody
  cases t with
  | opens n as self =>
    have hn : P.tag n as := ht
    steady hP hk
  | _ => steady hP hk

theorem inRow_sound {s : St} {t : Tok} (hs : Sound P s) (ht : P.tok t) :
    Post (Sound P) (inRow k s t) := by
  unfold inRow
  cases t with
  | opens n as self =>
    have hn : P.tag n as := ht
    steady hP hk
  | _ => steady hP hk

theorem inCell_sound {s : St} {t : Tok} (hs : Sound P s) (ht : P.tok t) :
    Post (Sound P) (inCell k s t) := by
  unfold inCell
  cases t <;> steady hP hk

theorem inTemplate_sound {s : St} {t : Tok} (hs : Sound P s) (ht : P.tok t) :
    Post (Sound P) (inTemplate k s t) := by
  unfold inTemplate
  cases t <;> steady hP hk

theorem afterBody_sound {s : St} {t : Tok} (hs : Sound P s) (ht : P.tok t) :
    Post (Sound P) (afterBody k s t) := by
  unfold afterBody
  cases t with
  | comment c =>
    dsimp only
    split
    · exact Post.ok hs
    · rename_i b hb
      exact hs.commentAt (p := ⟨b.id, none⟩) ht (hs.spot (hs.1.1.refs.opened b (List.mem_of_getLast? hb)))
  | _ => steady hP hk

theorem inFrameset_sound {s : St} {t : Tok} (hs : Sound P s) (ht : P.tok t) :
    Post (Sound P) (inFrameset k s t) := by
  unfold inFrameset
  cases t with
  | opens n as self =>
    have hn : P.tag n as := ht
    steady hP hk
  | char c =>
    have hc : P.char c := ht
    steady hP hk
  | comment c =>
    have hc : P.comment c := ht
    steady hP hk
  | _ => steady hP hk

theorem afterFrameset_sound {s : St} {t : Tok} (hs : Sound P s) (ht : P.tok t) :
    Post (Sound P) (afterFrameset k s t) := by
  unfold afterFrameset
  cases t with
  | char c =>
    have hc : P.char c := ht
    steady hP hk
  | comment c =>
    have hc : P.comment c := ht
    steady hP hk
  | _ => steady hP hk

theorem afterAfterBody_sound {s : St} {t : Tok} (hs : Sound P s) (ht : P.tok t) :
    Post (Sound P) (afterAfterBody k s t) := by
  unfold afterAfterBody
  cases t with
  | comment c =>
    have hc : P.comment c := ht
    steady hP hk
  | _ => steady hP hk

theorem afterAfterFrameset_sound {s : St} {t : Tok} (hs : Sound P s) (ht : P.tok t) :
    Post (Sound P) (afterAfterFrameset k s t) := by
  unfold afterAfterFrameset
  cases t with
  | comment c =>
    have hc : P.comment c := ht
    steady hP hk
  | _ => steady hP hk

theorem foreignEnd_sound {s : St} {t : Tok} (hs : Sound P s) (ht : P.tok t) (n : Str) :
    ∀ l, Post (Sound P) (foreignEnd k s t n l)
  | [] => Post.ok hs
  | e :: r => by
    rw [foreignEnd]
    refine Post.ite ?_ (Post.ite (foreignEnd_sound hs ht n r) (hk.acceptIn hs ht hs.2))
    split
    case h_1 => exact Post.error _
    case h_2 hd => exact Post.ok (hs.dropTo hd)

theorem breakOut_sound {s : St} {t : Tok} (hs : Sound P s) (ht : P.tok t) :
    Post (Sound P) (breakOut k s t) :=
  hk.accept (hs.stack (List.dropWhile_sublist _)) ht

theorem foreign_sound {s : St} {t : Tok} (hs : Sound P s) (ht : P.tok t) :
    Post (Sound P) (foreign k s t) := by
  have hb := breakOut_sound hP hk hs ht
  unfold foreign
  cases t with
  | opens n as self =>
    have hn : P.tag n as := ht
    refine Post.ite hb (Post.bindCur hs fun cur _ => ?_)
    refine Post.bindEl hP hs ?_ fun s' el hs' hv hq => by steady hP hk
    split
    · exact hP.cased n as hn
    · exact hn
  | closes n as self =>
    exact Post.ite hb (Post.bindCur hs fun cur _ => Post.ite hs.pop (foreignEnd_sound hP hk hs ht n _))
  | char c =>
    have hc : P.char c := ht
    refine Post.iff (fun e => hs.insertChar (hP.nul (e ▸ hc))) fun _ => by steady hP hk
  | comment c =>
    have hc : P.comment c := ht
    steady hP hk
  | _ => steady hP hk

theorem handle_sound (hk' : RecSound P.later k) {m : Mode} {s : St} {t : Tok} (hs : Sound P s)
    (ht : P.tok t) (hm : Late P.known m s.orig) : Post (Sound P) (handle k m s t) := by
  cases m
  · cases hm.1
  · cases hm.1
  · exact beforeHead_sound hP hk hs ht
  · exact inHead_sound hP hk hs ht
  · exact inHeadNoscript_sound hP hk hs ht
  · exact afterHead_sound hP hk hs ht
  · exact inBody_sound hP hk hs ht
  · exact text_sound hP hs ht (hm.2 (Or.inr (Or.inl rfl)))
  · exact inTable_sound hP hk hs ht
  · exact inTableText_sound hP hk hk' hs ht (hm.2 (Or.inr (Or.inr rfl)))
  · exact inCaption_sound hP hk hs ht
  · exact inColumnGroup_sound hP hk hs ht
  · exact inTableBody_sound hP hk hs ht
  · exact inRow_sound hP hk hs ht
  · exact inCell_sound hP hk hs ht
  · exact inTemplate_sound hP hk hs ht
  · exact afterBody_sound hP hk hs ht
  · exact inFrameset_sound hP hk hs ht
  · exact afterFrameset_sound hP hk hs ht
  · exact afterAfterBody_sound hP hk hs ht
  · exact afterAfterFrameset_sound hP hk hs ht

theorem acceptStep_sound {s : St} {t : Tok} (hs : Sound P s) (ht : P.tok t) :
    Post (Sound P) (acceptStep k s t) := by
  unfold acceptStep
  refine Post.ite (Post.ok hs) (Post.ite ?_ ?_)
  · exact hk.acceptIn (s := { s with skipLf := false }) hs ht hs.2
  · exact foreign_sound hP hk (s := { s with skipLf := false }) hs ht

end

/-- `run` at a depth. -/
def recOf (d : Nat) : Rec := ⟨run d none, fun m => run d (some m)⟩

theorem run_sound : ∀ (d : Nat) {P : Src}, P.Closed → RecSound P (recOf d)
  | 0, _, _ => ⟨fun _ _ => Post.error _, fun _ _ _ => Post.error _⟩
  | d + 1, _, hP =>
    ⟨fun hs ht => acceptStep_sound hP (run_sound d hP) hs ht,
     fun hs ht hm => handle_sound hP (run_sound d hP) (run_sound d hP.later) hs ht hm⟩

end Verif.Tree
