import Verif.Xml.Model

/-! # Equality of trees can be decided, to check concrete cases -/
namespace Verif.Xml

mutual
def Node.beq : Node → Node → Bool
  | .element q as ks, .element q' as' ks' => decide (q = q') && decide (as = as') && beqs ks ks'
  | .text t, .text t' => decide (t = t')
  | .comment t, .comment t' => decide (t = t')
  | .doctype a b c, .doctype a' b' c' => decide (a = a') && decide (b = b') && decide (c = c')
  | _, _ => false
def beqs : List Node → List Node → Bool
  | [], [] => true
  | a :: as, b :: bs => a.beq b && beqs as bs
  | _, _ => false
end

mutual
theorem Node.beq_iff : ∀ a b : Node, a.beq b = true ↔ a = b
  | .element q as ks, b => by
    cases b with
    | element q' as' ks' => simp [Node.beq, beqs_iff ks ks', and_assoc]
    | _ => simp [Node.beq]
  | .text t, b => by cases b <;> simp [Node.beq]
  | .comment t, b => by cases b <;> simp [Node.beq]
  | .doctype _ _ _, b => by cases b <;> simp [Node.beq, and_assoc]
theorem beqs_iff : ∀ a b : List Node, beqs a b = true ↔ a = b
  | [], b => by cases b <;> simp [beqs]
  | a :: as, b => by
    cases b with
    | nil => simp [beqs]
    | cons b bs => simp [beqs, Node.beq_iff a b, beqs_iff as bs]
end

instance : DecidableEq Node := fun a b => decidable_of_iff _ (Node.beq_iff a b)
deriving instance DecidableEq for Doc
deriving instance DecidableEq for R

end Verif.Xml
