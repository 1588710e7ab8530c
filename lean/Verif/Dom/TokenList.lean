/-!
# Class lists: `dom/token-list.cpp` and the class part of `dom/element.cpp`

Strings are lists of characters.
-/
namespace Verif.Dom

abbrev Token := List Char

/-- `TokenList::_tokens`.  `dom/token-list.cpp:11`. -/
abbrev TokenList := List Token

/-- `TokenList::add`.  `dom/token-list.cpp:31-34`. -/
def TokenList.add (l : TokenList) (t : Token) : TokenList :=
  if l.contains t then l else l ++ [t]

/-- `TokenList::remove` (`Vec::removeAll` drops every equal element).
`dom/token-list.cpp:36-38`. -/
def TokenList.remove (l : TokenList) (t : Token) : TokenList :=
  l.filter (fun x => x != t)

/-- `TokenList::toggle`.  `dom/token-list.cpp:40-47`. -/
def TokenList.toggle (l : TokenList) (t : Token) : TokenList × Bool :=
  if l.contains t then (l.filter (fun x => x != t), false) else (l ++ [t], true)

/-- `TokenList::replace`.  `dom/token-list.cpp:49-55`. -/
def TokenList.replace (l : TokenList) (old new : Token) : TokenList × Bool :=
  if l.contains old then (l.filter (fun x => x != old) ++ [new], true) else (l, false)

/-- `iterSplit(value, ' ')` of Karm: the pieces between separators, empty ones included. -/
def splitOn (sep : Char) : List Char → List (List Char)
  | [] => [[]]
  | c :: cs =>
    match splitOn sep cs with
    | [] => [[c]]
    | w :: ws => if c = sep then [] :: w :: ws else (c :: w) :: ws

/-- The class branch of `Element::setAttribute`: clear, split on spaces, skip empty
pieces, add.  `dom/element.cpp:117-125`. -/
def setClass (value : List Char) : TokenList :=
  (splitOn ' ' value).foldl (fun l t => if t.isEmpty then l else TokenList.add l t) []

/-- A call on an element's class list. -/
inductive ClassOp
  | set (value : List Char)
  | add (t : Token)
  | remove (t : Token)
  | toggle (t : Token)
deriving DecidableEq

def ClassOp.run (l : TokenList) : ClassOp → TokenList
  | .set v => setClass v
  | .add t => l.add t
  | .remove t => l.remove t
  | .toggle t => (l.toggle t).1

def runClassOps (l : TokenList) (ops : List ClassOp) : TokenList := ops.foldl ClassOp.run l

/-! ## Specification -/

/-- `SpaceSep s ts`: the space-separated words of `s` are `ts`, in order. -/
inductive SpaceSep : List Char → List Token → Prop
  | nil : SpaceSep [] []
  | space {s ts} : SpaceSep s ts → SpaceSep (' ' :: s) ts
  | word {w s ts} : w ≠ [] → ' ' ∉ w → (s = [] ∨ ∃ s', s = ' ' :: s') → SpaceSep s ts →
      SpaceSep (w ++ s) (w :: ts)

/-- Abstract state of a class list: for each token the moment it was put in, if it is in. -/
structure Stamps where
  now : Nat
  at_ : Token → Option Nat

def Stamps.empty : Stamps := ⟨0, fun _ => none⟩
/-- Put a token in now, unless it is already in. -/
def Stamps.put (s : Stamps) (t : Token) : Stamps :=
  ⟨s.now + 1, fun x => if x = t ∧ s.at_ x = none then some s.now else s.at_ x⟩
def Stamps.drop (s : Stamps) (t : Token) : Stamps :=
  ⟨s.now, fun x => if x = t then none else s.at_ x⟩

/-- What a call means: `words` are the words of the attribute value of a `set`. -/
inductive ClassOp.Means (s : Stamps) : ClassOp → Stamps → Prop
  | set {v ts} : SpaceSep v ts → Means s (.set v) (ts.foldl Stamps.put ⟨s.now, fun _ => none⟩)
  | add {t} : Means s (.add t) (s.put t)
  | remove {t} : Means s (.remove t) (s.drop t)
  | toggleOn {t} : s.at_ t = none → Means s (.toggle t) (s.put t)
  | toggleOff {t} : s.at_ t ≠ none → Means s (.toggle t) (s.drop t)

inductive ClassHistory : Stamps → List ClassOp → Stamps → Prop
  | nil {s} : ClassHistory s [] s
  | cons {s s' s'' op ops} : op.Means s s' → ClassHistory s' ops s'' → ClassHistory s (op :: ops) s''

/-- The list holds exactly the stamped tokens, ordered by stamp (hence without repetition). -/
structure Agrees (l : TokenList) (s : Stamps) : Prop where
  mem : ∀ t, t ∈ l ↔ s.at_ t ≠ none
  bound : ∀ t n, s.at_ t = some n → n < s.now
  order : l.Pairwise (fun a b => ∃ i j, s.at_ a = some i ∧ s.at_ b = some j ∧ i < j)

theorem Agrees.nodup {l s} (h : Agrees l s) : l.Nodup := by
  refine h.order.imp ?_
  rintro a b ⟨i, j, h1, h2, h3⟩ rfl
  rw [h1] at h2; cases h2; omega

theorem Agrees.add {l s} (h : Agrees l s) (t : Token) : Agrees (l.add t) (s.put t) := by
  unfold TokenList.add
  split
  · rename_i hc
    simp only [List.contains_iff_mem] at hc
    have ht := (h.mem t).1 hc
    have e : (s.put t).at_ = s.at_ := by
      funext x; simp only [Stamps.put]; split <;> grind
    exact ⟨by rw [e]; exact h.mem, by rw [e]; intro t n hn; have := h.bound t n hn; simp [Stamps.put]; omega,
      by rw [e]; exact h.order⟩
  · rename_i hc
    simp only [List.contains_iff_mem] at hc
    have ht : s.at_ t = none := by
      have := h.mem t; grind
    have old : ∀ a ∈ l, (s.put t).at_ a = s.at_ a := by
      intro a ha
      simp only [Stamps.put]
      have := (h.mem a).1 ha
      grind
    refine ⟨?_, ?_, ?_⟩
    · intro x
      simp only [List.mem_append, List.mem_singleton, Stamps.put, h.mem]
      by_cases hx : x = t
      · subst hx; simp [ht]
      · simp [hx]
    · intro x n hx
      simp only [Stamps.put] at hx ⊢
      split at hx
      · cases hx; omega
      · have := h.bound x n hx; omega
    · refine List.pairwise_append.2 ⟨?_, by simp, ?_⟩
      · refine h.order.imp_of_mem ?_
        intro a b ha hb
        rw [old a ha, old b hb]; exact id
      · intro a ha b hb
        simp only [List.mem_singleton] at hb; subst hb
        have h1 := (h.mem a).1 ha
        cases e : s.at_ a with
        | none => exact absurd e h1
        | some i =>
          exact ⟨i, s.now, by rw [old a ha, e], by simp [Stamps.put, ht], h.bound a i e⟩

theorem Agrees.remove {l s} (h : Agrees l s) (t : Token) : Agrees (l.remove t) (s.drop t) := by
  unfold TokenList.remove
  refine ⟨?_, ?_, ?_⟩
  · intro x
    simp only [List.mem_filter, Stamps.drop, h.mem]
    by_cases hx : x = t <;> simp [hx]
  · intro x n hx
    simp only [Stamps.drop] at hx ⊢
    split at hx
    · cases hx
    · exact h.bound x n hx
  · refine (h.order.filter _).imp_of_mem ?_
    intro a b ha hb hab
    simp only [List.mem_filter, bne_iff_ne, ne_eq] at ha hb
    simpa [Stamps.drop, ha.2, hb.2] using hab

theorem splitOn_ne_nil (sep : Char) (s : List Char) : splitOn sep s ≠ [] := by
  cases s with
  | nil => simp [splitOn]
  | cons c cs => simp only [splitOn]; split <;> (try split) <;> simp

theorem splitOn_word {w s : List Char} (hw : ' ' ∉ w) :
    splitOn ' ' (w ++ s) = (w ++ (splitOn ' ' s).head (splitOn_ne_nil _ _)) :: (splitOn ' ' s).tail := by
  induction w with
  | nil => simp
  | cons c w ih =>
    simp only [List.mem_cons, not_or] at hw
    simp only [List.cons_append, splitOn, ih hw.2]
    simp [Ne.symm hw.1]

theorem splitOn_space (s : List Char) : splitOn ' ' (' ' :: s) = [] :: splitOn ' ' s := by
  simp only [splitOn]
  cases h : splitOn ' ' s with
  | nil => exact absurd h (splitOn_ne_nil _ _)
  | cons a b => simp

theorem split_words {s ts} (h : SpaceSep s ts) : (splitOn ' ' s).filter (fun t => !t.isEmpty) = ts := by
  induction h with
  | nil => rfl
  | space _ ih => rw [splitOn_space]; simpa using ih
  | @word w s ts hne hw hs _ ih =>
    rw [splitOn_word hw]
    rcases hs with rfl | ⟨s', rfl⟩
    · simp [splitOn] at ih ⊢
      subst ih; simp [hne]
    · simp only [splitOn_space] at ih ⊢
      simp at ih ⊢
      rw [List.filter_cons, ih]; simp [hne]

theorem foldl_skip {α β} (f : β → α → β) (p : α → Bool) (l : List α) (b : β) :
    l.foldl (fun b a => if p a then b else f b a) b = (l.filter (fun a => !p a)).foldl f b := by
  induction l generalizing b with
  | nil => rfl
  | cons a l ih => by_cases h : p a <;> simp [h, ih]

theorem Agrees.puts {l s} (h : Agrees l s) (ts : List Token) :
    Agrees (ts.foldl TokenList.add l) (ts.foldl Stamps.put s) := by
  induction ts generalizing l s with
  | nil => exact h
  | cons t ts ih => exact ih (h.add t)

theorem Agrees.run {l s s' op} (h : Agrees l s) (hm : ClassOp.Means s op s') : Agrees (op.run l) s' := by
  cases hm with
  | set hw =>
    simp only [ClassOp.run, setClass]
    rw [foldl_skip TokenList.add List.isEmpty, split_words hw]
    exact Agrees.puts ⟨by simp, by simp, by simp⟩ _
  | add => exact h.add _
  | remove => exact h.remove _
  | toggleOn hn =>
    have := h.mem
    simp only [ClassOp.run, TokenList.toggle]
    have hc : ¬ _ ∈ l := fun hm => (h.mem _).1 hm hn
    have := h.add (by assumption)
    simp only [TokenList.add, List.contains_iff_mem, hc, if_false] at this ⊢
    exact this
  | toggleOff hn =>
    simp only [ClassOp.run, TokenList.toggle]
    have hc := (h.mem _).2 hn
    simp only [List.contains_iff_mem, hc, if_true]
    exact h.remove _

theorem Agrees.history {l s s' ops} (h : Agrees l s) (hh : ClassHistory s ops s') :
    Agrees (runClassOps l ops) s' := by
  induction hh generalizing l with
  | nil => exact h
  | cons hm _ ih => exact ih (h.run hm)

/-- Every value has words, so every history has a meaning. -/
theorem spaceSep_total (s : List Char) : ∃ ts, SpaceSep s ts := by
  have : ∀ n, ∀ s : List Char, s.length ≤ n → ∃ ts, SpaceSep s ts := by
    intro n
    induction n with
    | zero => intro s hs; cases s with
      | nil => exact ⟨[], .nil⟩
      | cons => simp at hs
    | succ n ih =>
      intro s hs
      match s with
      | [] => exact ⟨[], .nil⟩
      | c :: cs =>
        simp at hs
        by_cases hc : c = ' '
        · subst hc
          obtain ⟨ts, h⟩ := ih cs (by omega)
          exact ⟨ts, .space h⟩
        · let w := cs.takeWhile (fun x => x != ' ')
          let r := cs.dropWhile (fun x => x != ' ')
          have e : cs = w ++ r := (List.takeWhile_append_dropWhile).symm
          have hr : r.length ≤ n := by
            have := congrArg List.length e; simp at this; omega
          obtain ⟨ts, h⟩ := ih r hr
          refine ⟨(c :: w) :: ts, ?_⟩
          rw [e]
          refine SpaceSep.word (w := c :: w) (by simp) ?_ ?_ h
          · intro hm
            simp only [List.mem_cons] at hm
            rcases hm with hm | hm
            · exact hc hm.symm
            · have hall : (cs.takeWhile (fun x => x != ' ')).all (fun x => x != ' ') = true := List.all_takeWhile
              have := List.all_eq_true.1 hall _ hm
              simp at this
          · match hrr : r with
            | [] => exact .inl rfl
            | x :: r' =>
              have := List.head?_dropWhile_not (p := fun x => x != ' ') (l := cs)
              rw [show cs.dropWhile (fun x => x != ' ') = x :: r' from hrr] at this
              simp at this
              exact .inr ⟨r', by rw [this]⟩
  exact this _ s (Nat.le_refl _)

theorem means_total (s : Stamps) (op : ClassOp) : ∃ s', op.Means s s' := by
  cases op with
  | set v => obtain ⟨ts, h⟩ := spaceSep_total v; exact ⟨_, .set h⟩
  | add t => exact ⟨_, .add⟩
  | remove t => exact ⟨_, .remove⟩
  | toggle t =>
    by_cases h : s.at_ t = none
    · exact ⟨_, .toggleOn h⟩
    · exact ⟨_, .toggleOff h⟩

theorem history_total (s : Stamps) (ops : List ClassOp) : ∃ s', ClassHistory s ops s' := by
  induction ops generalizing s with
  | nil => exact ⟨s, .nil⟩
  | cons op ops ih =>
    obtain ⟨s1, h1⟩ := means_total s op
    obtain ⟨s2, h2⟩ := ih s1
    exact ⟨s2, .cons h1 h2⟩

end Verif.Dom
