import Verif.Model.Global

/-!
# Method calls (core.hpp 1970-2000, 2432-2614)
-/

namespace OpenMethod

/-- Reading a word of the current dispatch data through a pointer. Reading through a pointer in an older vector, outside
the vector, or a word that was not written, is undefined behaviour. -/
def readWord (gen : Nat) (data : List Word) (p : Ptr) : Res Word :=
  if p.gen = gen ∧ 0 ≤ p.off then Res.ofOption data[p.off.toNat]? else .ub

/-- Reading member `pf`. -/
def Word.asPf : Word → Res Pf
  | .pf f => .ok f
  | _ => .ub

/-- Reading member `i`. -/
def Word.asIdx : Word → Res Nat
  | .idx n => .ok n
  | _ => .ub

/-- Reading member `pw`. -/
def Word.asPtr : Word → Res Ptr
  | .addr p => .ok p
  | _ => .ub

/-- `resolve_uni` (core.hpp 2488-2502). `ss` is `slots_strides`; `params` says which parameters are virtual; each element of
`args` is the evaluation of `vptr(arg)` (core.hpp 2475-2482), only performed for virtual parameters. Calls with fewer
arguments than parameters do not compile. -/
def resolveUni (rd : Ptr → Res Word) (ss : List Nat) : List Bool → List (Res Ptr) → Res Word
  | true :: _, a :: _ => do
    let vtbl ← a
    let slot ← Res.ofOption ss[0]?
    rd (vtbl.add slot)
  | false :: ks, _ :: as => resolveUni rd ss ks as
  | _, _ => .ub

/-- First half of `resolve_multi_next` (core.hpp 2545-2550): the displacement due to one parameter. -/
def nextDispatch (rd : Ptr → Res Word) (ss : List Nat) (arity va : Nat) (dispatch : Ptr) (virt : Bool) (a : Res Ptr) :
    Res Ptr :=
  if virt then do
    let vtbl ← a
    let slot ← Res.ofOption ss[va]?
    let stride ← Res.ofOption ss[arity + va - 1]?
    let w ← rd (vtbl.add slot)
    let i ← w.asIdx
    .ok (dispatch.add (i * stride))
  else .ok dispatch

/-- `resolve_multi_next` (core.hpp 2538-2559). `va` is `VirtualArg`: as in the code, it is incremented for each parameter,
virtual or not. -/
def resolveMultiNext (rd : Ptr → Res Word) (ss : List Nat) (arity : Nat) :
    Nat → Ptr → List Bool → List (Res Ptr) → Res Word
  | va, dispatch, k :: ks, a :: as => do
    let dispatch ← nextDispatch rd ss arity va dispatch k a
    if va + 1 = arity then rd dispatch
    else resolveMultiNext rd ss arity (va + 1) dispatch ks as
  | _, _, _, _ => .ub

/-- `resolve_multi_first` (core.hpp 2508-2530). -/
def resolveMultiFirst (rd : Ptr → Res Word) (ss : List Nat) (arity : Nat) : List Bool → List (Res Ptr) → Res Word
  | true :: ks, a :: as => do
    let vtbl ← a
    let slot ← Res.ofOption ss[0]?
    let w ← rd (vtbl.add slot)
    let dispatch ← w.asPtr
    resolveMultiNext rd ss arity 1 dispatch ks as
  | false :: ks, _ :: as => resolveMultiFirst rd ss arity ks as
  | _, _ => .ub

/-- `resolve` (core.hpp 2453-2470) after the test that the registry is initialized. -/
def resolve (rd : Ptr → Res Word) (ss : List Nat) (arity : Nat) (params : List Bool) (args : List (Res Ptr)) : Res Pf := do
  let w ← if arity = 1 then resolveUni rd ss params args else resolveMultiFirst rd ss arity params args
  w.asPf

/-- Capacity of `bad_call::types` (preamble.hpp 233-235). -/
def maxTypes : Nat := 16

/-- `init_bad_call` (core.hpp 1970-2000): `arity` is the number of parameters, virtual or not, and `types` receives the
dynamic types of all arguments. Methods with more parameters than the capacity do not compile, if there is an error handler. -/
def badCallArity (types : List TypeId) : Nat := types.length

def badCallTypes (types : List TypeId) : List TypeId := types.take maxTypes

/-- Calling the function that was resolved: an overrider is entered, or one of the two error functions (core.hpp
2583-2614) reports the dynamic types of all arguments. -/
def enter (f : Pf) (types : List TypeId) : Res Nat :=
  match f with
  | .user n => .ok n
  | .notImplemented _ => .err (.noOverrider (badCallArity types) (badCallTypes types))
  | .ambiguous _ => .err (.ambiguousCall (badCallArity types) (badCallTypes types))

/-- `has_next` (core.hpp 2568-2578): compares `next<Fn>`, possibly null, with the two error functions of the method. -/
def hasNext (method : Nat) (next : Option Pf) : Bool :=
  if next = some (.notImplemented method) then false
  else if next = some (.ambiguous method) then false
  else true

/-- `compile` and `install_global_tables` (initialize.hpp 447-477), except the vptr policy. `gen` identifies the new
dispatch data. -/
def install (pl : Platform) (n2216 : Bool) (p : Program) (gen : Nat) : Res (Report × Image) := do
  let c ← compile pl n2216 p
  let img ← writeGlobal c gen
  return (c.report, img)

/-- Content of the `slots_strides` array of a method (core.hpp 2066-2072) after the stores of `write_global_data`: the last
store remains. -/
def slotsStridesAt (img : Image) (id : Nat) : Option (List Nat) :=
  (img.slotsStrides.reverse.find? (fun x => x.1 = id)).map (·.2)

/-- Content of a `next` variable (core.hpp 2222-2233) after the stores of `write_global_data` (initialize.hpp 1344-1364):
the last store remains; `none` when nothing was stored. -/
def nextAt (img : Image) (v : VarId) : Option Pf := (img.next.reverse.find? (fun x => x.1 = v)).map (·.2)

/-- A call (core.hpp 2432-2470) after a successful `initialize`, without the test that the registry is initialized, which
is in `Verif.Model.Registry`. `args` gives the v-table pointers of the arguments, `types` their dynamic types. -/
def callMethod (gen : Nat) (img : Image) (m : MethodInfo) (args : List (Res Ptr)) (types : List TypeId) : Res Nat := do
  let ss ← Res.ofOption (slotsStridesAt img m.id)
  let f ← resolve (readWord gen img.data) ss m.arity m.params args
  enter f types

end OpenMethod
