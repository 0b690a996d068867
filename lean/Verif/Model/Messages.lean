import Verif.Model.Output
import Verif.Model.ErrorHandler

/-!
# Descriptions of errors

`write` of each error class (preamble.hpp 88-93, 124-127, 246-263, 1072-1092, fast_perfect_hash.hpp 264-268), `rtti::type_name` (std_rtti.hpp 68-72, preamble.hpp 590-600), and their use by
the stock error handlers (default_error_handler.hpp 106-117, throw_error_handler.hpp 30-43).

Simplification: errors of the streams are ignored, as in the code.
-/

namespace OpenMethod.Messages

open Output

/-- The insertion operators of a stream, as far as descriptions of errors use them. -/
structure StreamOps (σ : Type) where
  text : σ → List Char → σ
  address : σ → BitVec 64 → Res σ
  number : σ → BitVec 64 → Res σ

/-- `ostdstream` (ostdstream.hpp 22-100). -/
def light : StreamOps Stream where
  text := puts
  address := putAddress
  number := putSize

/-- `std::ostringstream`. Numbers are written in decimal; the representation of addresses is defined by the implementation. -/
def strings (address : BitVec 64 → List Char) : StreamOps (List Char) where
  text s cs := s ++ cs
  address s v := .ok (s ++ address v)
  number s v := .ok (s ++ (digits 10 v.toNat).map digitChar)

/-- The source of the names of types. -/
inductive Names where
  /-- `rtti::defaults` (preamble.hpp 590-600) -/
  | defaults
  /-- a policy with its own `type_name`; for `std_rtti`, the demangled names of the `type_info` objects -/
  | given (name : TypeId → List Char)

variable {σ : Type}

/-- `rtti::type_name` (preamble.hpp 597-600, std_rtti.hpp 68-72). -/
def typeName (S : StreamOps σ) (N : Names) (t : TypeId) (os : σ) : Res σ :=
  match N with
  | .defaults => do
    let os := S.text os "type_id(".toList
    let os ← S.address os t
    .ok (S.text os ")".toList)
  | .given name => .ok (S.text os (name t))

/-- `write` of the class of the error. `self` is the type id of the registry. -/
def write (S : StreamOps σ) (N : Names) (self : TypeId) (os : σ) : Err → Res σ
  -- preamble.hpp 1072-1076
  | .missingClass t => typeName S N t (S.text os "unknown class ".toList)
  -- preamble.hpp 1078-1084
  | .missingBase base derived => do
    let os ← typeName S N base (S.text os "missing base ".toList)
    typeName S N derived (S.text os " -<| ".toList)
  -- preamble.hpp 124-127
  | .notInitialized => .ok (S.text os "not initialized".toList)
  -- fast_perfect_hash.hpp 264-268
  | .searchError attempts buckets => do
    let os ← S.number (S.text os "could not find hash factors after ".toList) (BitVec.ofNat 64 attempts)
    let os ← S.number (S.text os "s using ".toList) (BitVec.ofNat 64 buckets)
    .ok (S.text os " buckets\n".toList)
  -- preamble.hpp 246-249
  | .noOverrider _ _ => .ok (S.text os "not implemented".toList)
  -- preamble.hpp 260-263
  | .ambiguousCall _ _ => .ok (S.text os "ambiguous".toList)
  -- preamble.hpp 1086-1092
  | .finalError st dyn => do
    let os ← typeName S N st (S.text os "invalid call to final construct: static type = ".toList)
    typeName S N dyn (S.text os ", dynamic type = ".toList)
  -- preamble.hpp 88-93
  | .odrViolation => typeName S N self (S.text os "conflicting definitions of ".toList)

/-- `default_handler` (default_error_handler.hpp 106-117), for a registry with an output policy. -/
def report (N : Names) (self : TypeId) (os : Stream) (e : Err) : Res Stream := do
  let os ← write light N self os e
  .ok (puts os "\n".toList)

/-- What a sequence of errors leaves on the output. -/
def reports (N : Names) (self : TypeId) (os : Stream) : List Err → Res Stream
  | [] => .ok os
  | e :: es => do
    let os ← report N self os e
    reports N self os es

/-- The description that `throw_error_handler` gives to the exception (throw_error_handler.hpp 39-42): `what()`. -/
def what (address : BitVec 64 → List Char) (N : Names) (self : TypeId) (e : Err) : Res (List Char) := write (strings address) N self [] e

end OpenMethod.Messages
