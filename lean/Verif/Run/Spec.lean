import Verif.Run.Model
/-!
# Running: specification

Nothing here refers to the functions that run.
-/
namespace Verif.Run

/-- A header or footer that is asked for is loaded; `Extra x evs d`: the events of it and the document. -/
inductive Extra : Option String → List Ev → Option Doc → Prop where
  | none : Extra none [] none
  | some {u d} : Extra (some u) [.load u (some d)] (some d)

/-- Pages for paged output: with PDF, or when asked for. -/
def Paged (o : Opts) : Prop := o.flow = .paginate ∨ (o.flow = .auto ∧ o.pdf = true)

/-- One input is loaded, with header and footer if there are pages: `One w o u evs ps` with the events and the pages. -/
inductive One (w : World) (o : Opts) (u : String) : List Ev → List Page → Prop where
  | paged {d h f hs fs} : Paged o → Extra o.header hs h → Extra o.footer fs f →
      One w o u (.load u (some d) :: (hs ++ fs)) (w.print d h f)
  | single {d} : ¬ Paged o → One w o u [.load u (some d)] [w.render d]

/-- All inputs are loaded, one after the other. -/
inductive All (w : World) (o : Opts) : List String → List Ev → List Page → Prop where
  | nil : All w o [] [] []
  | cons {u us evs evs' ps ps'} : One w o u evs ps → All w o us evs' ps' → All w o (u :: us) (evs ++ evs') (ps ++ ps')

/-- Inputs are loaded and saved under their own names, one after the other, up to `rest`. -/
inductive Saved (w : World) (o : Opts) : List String → List String → List Ev → Prop where
  | stop {us} : Saved w o us us []
  | cons {u us rest evs ps tr} : One w o u evs ps → w.encode ps = true → Saved w o us rest tr →
      Saved w o (u :: us) rest (evs ++ (.put (w.name u) ps us.isEmpty true :: tr))

def Ev.isLoad : Ev → Prop
  | .load _ _ => True
  | .put _ _ _ _ => False

/-- What is found under a name in the end: the last thing that was saved. -/
def stored (tr : List Ev) (url : String) : Option (List Page) :=
  (tr.filterMap fun e => match e with
    | .put u ps _ true => if u = url then some ps else none
    | _ => none).getLast?

end Verif.Run
