import Verif.Model.Basic
import Verif.SpecOutput

/-!
# Specification of the descriptions of errors
-/

namespace OpenMethod

/-- The class of an error. -/
inductive ErrKind where
  | missingClass
  | missingBase
  | notInitialized
  | searchError
  | noOverrider
  | ambiguousCall
  | finalError
  | odrViolation
  deriving DecidableEq, Repr

def ErrKind.of : Err → ErrKind
  | .missingClass _ => .missingClass
  | .missingBase _ _ => .missingBase
  | .notInitialized => .notInitialized
  | .searchError _ _ => .searchError
  | .noOverrider _ _ => .noOverrider
  | .ambiguousCall _ _ => .ambiguousCall
  | .finalError _ _ => .finalError
  | .odrViolation => .odrViolation

/-- The classes at fault, in the order of the members of the error object. Objects for bad calls also have the types of the arguments, which are not at fault. -/
def Err.culprits : Err → List TypeId
  | .missingClass t => [t]
  | .missingBase b d => [b, d]
  | .finalError s d => [s, d]
  | _ => []

def Err.numbers : Err → List Nat
  | .searchError a b => [a, b]
  | _ => []

/-- The members are values of their types. -/
def Err.InRange (e : Err) : Prop := ∀ n ∈ e.numbers, n < 2 ^ 64

/-- The text for an error, if `name` gives the names of types and `self` is that of the registry. -/
inductive Description (name : TypeId → List Char) (self : TypeId) : Err → List Char → Prop
  | missingClass (t : TypeId) : Description name self (.missingClass t) ("unknown class ".toList ++ name t)
  | missingBase (b d : TypeId) : Description name self (.missingBase b d) ("missing base ".toList ++ name b ++ " -<| ".toList ++ name d)
  | notInitialized : Description name self .notInitialized "not initialized".toList
  | searchError {a b : Nat} {ca cb : List Char} : Numeral 10 ca a → Numeral 10 cb b →
      Description name self (.searchError a b) ("could not find hash factors after ".toList ++ ca ++ "s using ".toList ++ cb ++ " buckets\n".toList)
  | noOverrider (n : Nat) (ts : List TypeId) : Description name self (.noOverrider n ts) "not implemented".toList
  | ambiguousCall (n : Nat) (ts : List TypeId) : Description name self (.ambiguousCall n ts) "ambiguous".toList
  | finalError (s d : TypeId) : Description name self (.finalError s d)
      ("invalid call to final construct: static type = ".toList ++ name s ++ ", dynamic type = ".toList ++ name d)
  | odrViolation : Description name self .odrViolation ("conflicting definitions of ".toList ++ name self)

/-- Names that can be told from the text around them. -/
def PlainNames (name : TypeId → List Char) : Prop := ∀ t, '|' ∉ name t ∧ '=' ∉ name t ∧ '\n' ∉ name t

/-- The names that `rtti::defaults` promises: `type_id(` followed by the type id, and `)`. -/
def AdornedNames (name : TypeId → List Char) : Prop := ∀ t, ∃ cs, Numeral 16 cs t.toNat ∧ name t = "type_id(".toList ++ cs ++ ")".toList

/-- A reader who knows the names of the types cannot tell these errors apart. -/
structure SameNews (name : TypeId → List Char) (e e' : Err) : Prop where
  kind : ErrKind.of e = ErrKind.of e'
  culprits : e.culprits.map name = e'.culprits.map name
  numbers : e.numbers = e'.numbers

end OpenMethod
