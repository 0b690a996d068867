import Verif.Spec
import Verif.Model.Call

/-!
# Specification of calls

Vocabulary for theorems about calls made after `initialize`.
-/

namespace OpenMethod

open Spec

/-- The v-table pointer of a class after `write_global_data`. -/
def Image.ptr (img : Image) (gen : Nat) (x : Cls) : Ptr := { gen := gen, off := img.vptr x }

/-- The arguments of a call: v-table pointers of objects of the given classes for virtual parameters, anything for the
others. -/
inductive ArgsFor (ptr : Cls → Ptr) : List Bool → List (Res Ptr) → List Cls → Prop
  | nil : ArgsFor ptr [] [] []
  | virt {ks as xs} (x : Cls) : ArgsFor ptr ks as xs → ArgsFor ptr (true :: ks) (.ok (ptr x) :: as) (x :: xs)
  | other {ks as xs} (r : Res Ptr) : ArgsFor ptr ks as xs → ArgsFor ptr (false :: ks) (r :: as) xs

/-- There is no other parameter between two virtual parameters. -/
def Contiguous (params : List Bool) : Prop :=
  ∃ a n b, params = List.replicate a false ++ List.replicate n true ++ List.replicate b false

/-- Exactly `k` virtual parameters follow each other; then come other parameters, so many of them that the remaining virtual
parameters are not among the first `n`, counted from the first virtual parameter, `n` being the number of virtual parameters. -/
def Leading (params : List Bool) (k : Nat) : Prop :=
  1 ≤ k ∧ ∃ a b rest, params = List.replicate a false ++ (List.replicate k true ++ (List.replicate b false ++ rest)) ∧
    params.count true ≤ k + b

/-- What the C++ compiler and linker guarantee about the registered records: inheritance has no cycle, methods and
overriders conform, method objects are distinct. -/
structure Program.Valid (p : Program) : Prop where
  acyclic : Acyclic p
  wf : ∀ m ∈ p.methods, m.WF
  ids : (p.methods.map (·.id)).Nodup

/-- A call to method `m` with objects of classes `xs` as virtual arguments, in a registry whose current dispatch data is
`img`. -/
structure AnyCall (p : Program) (gen : Nat) (img : Image) (m : MethodInfo) (args : List (Res Ptr)) (xs : List Cls) : Prop where
  mem : m ∈ p.methods
  args : ArgsFor (img.ptr gen) m.params args xs
  callable : Callable p m xs

/-- As `AnyCall`; the last two conditions exclude the two situations in which the library is wrong: see C05 and C06. -/
structure CallTo (p : Program) (gen : Nat) (img : Image) (m : MethodInfo) (args : List (Res Ptr)) (xs : List Cls) : Prop where
  mem : m ∈ p.methods
  args : ArgsFor (img.ptr gen) m.params args xs
  callable : Callable p m xs
  order : ArgsSafe p (classesOf p m.vp) xs
  contiguous : m.vp.length = 1 ∨ Contiguous m.params

theorem CallTo.any {p : Program} {gen : Nat} {img : Image} {m : MethodInfo} {args : List (Res Ptr)} {xs : List Cls}
    (h : CallTo p gen img m args xs) : AnyCall p gen img m args xs := ⟨h.mem, h.args, h.callable⟩

/-- What running the call `r` means in terms of the documented outcomes. -/
def Does (m : MethodInfo) (r : Res Nat) : Outcome → Prop
  | .run i => ∃ o, m.overriders[i]? = some o ∧ r = .ok o.pf
  | .noOverrider => ∃ arity types, r = .err (.noOverrider arity types)
  | .ambiguous => ∃ arity types, r = .err (.ambiguousCall arity types)

end OpenMethod
