import Verif.Model.UseClasses
import Verif.Model.Policies

/-!
# The classes of errors, and how they reach the handlers

`error_variant` and the conversion of an error to it (default_error_handler.hpp 40-88), and the class of the exceptions of `throw_error_handler` (throw_error_handler.hpp 33-47), with the
rules of C++ on which they rely: the converting constructor of `std::variant` ([variant.ctor]), overload resolution between conversions to bases ([over.ics.rank]), and the choice of a
handler ([except.handle]).

Simplifications: inheritance is public, error classes have no conversions but those to their bases, and can be copied and derived from. The partial specialisations of
`error_variant_aux` are tried in the order of the model.
-/

namespace OpenMethod.ErrorTypes

/-- The class of the errors (preamble.hpp 73-323, fast_perfect_hash.hpp 52-67); numbers below 12 are those of the classes of the library and of the standard library. -/
def classOf : Err → Cls
  | .odrViolation => 1
  | .notInitialized => 2
  | .missingClass _ => 3
  | .missingBase _ _ => 4
  | .noOverrider _ _ => 6
  | .ambiguousCall _ _ => 7
  | .finalError _ _ => 8
  | .searchError _ _ => 9

def openmethodError : Cls := 0
def badCall : Cls := 5
def stdException : Cls := 10
def runtimeError : Cls := 11

/-- The definitions of these classes. -/
def stock : Hier :=
  [(9, [(0, false)]), (8, [(0, false)]), (7, [(5, false)]), (6, [(5, false)]), (5, [(0, false)]), (4, [(0, false)]), (3, [(0, false)]), (2, [(0, false)]), (1, [(0, false)]), (0, []),
    (11, [(10, false)]), (10, [])]

/-- The errors that are always in `error_variant` (default_error_handler.hpp 69-72). -/
def always : List Cls := [2, 6, 7, 3, 4, 1, 8]

/-- `error_variant_aux` (default_error_handler.hpp 41-65): `l` are the alternatives so far, and `errors` the lists `Policy::errors` of the remaining policies; `none` if there is no such
member. -/
def errorVariantAux (l : List Cls) : List (Option (List Cls)) → List Cls
  | [] => l
  | none :: more => errorVariantAux l more
  | some es :: more => errorVariantAux (l ++ es) more

/-- `error_variant` (default_error_handler.hpp 68-73). -/
def errorVariant {α : Type} (errors : α → Option (List Cls)) (policies : List α) : List Cls := errorVariantAux always (policies.map errors)

/-- The conversion of an `e` to `c` is better than that to `d`: `d` is a base of `c`. -/
def better (H : Hier) (c d : Cls) : Bool := c ≠ d && H.isBaseOf d c

/-- `error_variant(error)` (default_error_handler.hpp 85), for an error of class `e`: the alternative, and its position. `none`: rejected by the compiler. -/
def select (H : Hier) (V : List Cls) (e : Cls) : Option (Cls × Nat) :=
  let viable := V.zipIdx.filter fun x => H.isConvertible e x.1
  viable.find? fun x => viable.all fun y => y.2 = x.2 || better H x.1 y.1

/-- The class of the error that the handler receives (default_error_handler.hpp 83-86): a copy of that base of the error. -/
def handed (H : Hier) (V : List Cls) (e : Cls) : Option Cls := (select H V e).map (·.1)

/-- With the class `wrapper` (throw_error_handler.hpp 34-38), called `w`, for errors of class `e`. -/
def wrap (H : Hier) (w e : Cls) : Hier := (w, [(e, false), (runtimeError, false)]) :: H

/-- Which of the handlers `catch (const C&)` catches the exception thrown by `throw_error_handler::error` (throw_error_handler.hpp 43). `none`: none of them. -/
def caughtBy (H : Hier) (w e : Cls) (handlers : List Cls) : Option Cls := handlers.find? fun c => (wrap H w e).isConvertible w c

end OpenMethod.ErrorTypes
