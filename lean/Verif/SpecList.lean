import Verif.Model.StaticList

/-! # Specification: registration lists as sequences -/

namespace OpenMethod.Spec

/-- What an operation does to the sequence of registered items; only items that are not registered can be registered, and only
items that are registered can be removed. -/
inductive SeqStep : List Nat → ListOp → List Nat → Prop
  | push {l : List Nat} {x : Nat} : x ∉ l → SeqStep l (.push x) (l ++ [x])
  | remove {a b : List Nat} {x : Nat} : SeqStep (a ++ x :: b) (.remove x) (a ++ b)
  | clear {l : List Nat} : SeqStep l .clear []

/-- A history of operations. -/
inductive History : List Nat → List ListOp → List Nat → Prop
  | nil {l : List Nat} : History l [] l
  | cons {l l' l'' : List Nat} {op : ListOp} {ops : List ListOp} : SeqStep l op l' → History l' ops l'' → History l (op :: ops) l''

/-- The number of registrations in a history, a bound on the length of the sequence. -/
def pushes (ops : List ListOp) : Nat := ops.countP fun op => match op with | .push _ => true | _ => false

end OpenMethod.Spec
