import Verif.Model.VirtualPtr

/-!
# Error handlers (policies/default_error_handler.hpp, policies/throw_error_handler.hpp) and the code that reports errors

The other modules model the library up to the point where an error is detected. Here, code that reports errors is modelled with the calls to the error
handler, what they do, and what the library does after they return. Each definition `fE` mirrors definition `f` of the other modules.

Simplification: error handlers do not use the library.
-/

namespace OpenMethod

/-- A function that can be installed as an error handler: the default one, or one of those provided by the user. -/
inductive Fn where
  | default
  | user (n : Nat)
  deriving DecidableEq, Repr

/-- What is called when an error is reported: a function, or `error` of the policy itself. -/
inductive Handler where
  | fn (f : Fn)
  | policy
  deriving DecidableEq, Repr

/-- Exceptions: an object of a class derived from an error class and from `std::runtime_error`; an exception chosen by the user; `std::bad_function_call`. -/
inductive Exn where
  | library (e : Err)
  | user (n : Nat)
  | badFunctionCall
  deriving DecidableEq, Repr

/-- How a function provided by the user ends; `exits`: the program ends. -/
inductive Ending where
  | returns
  | throws (n : Nat)
  | exits
  deriving DecidableEq, Repr

inductive Event where
  | called (h : Handler) (e : Err)
  /-- a description was written -/
  | wrote (e : Err)
  deriving DecidableEq, Repr

/-- The error_handler policy of a registry. -/
inductive ErrorPolicy where
  | none
  | default (output : Bool)
  | throwing
  /-- provided by the user -/
  | custom
  deriving DecidableEq, Repr

def ErrorPolicy.hasHandler : ErrorPolicy → Bool
  | .none => false
  | _ => true

/-- The policy, and the behaviour of what the user provides, which may depend on what happened before. -/
structure Setup where
  policy : ErrorPolicy
  user : Nat → Err → List Event → Ending
  custom : Err → List Event → Ending

/-- The state of a registry, the function installed as error handler, `none` if it is an empty `std::function`, and what happened so far. -/
structure EffState where
  reg : RegState
  handler : Option Fn
  log : List Event

inductive Out (α : Type) where
  | ret (a : α)
  | thrown (x : Exn)
  | aborted
  | exited
  | ub
  deriving DecidableEq, Repr

/-- Code that may report errors. -/
def Eff (α : Type) : Type := EffState → Out α × EffState

namespace Eff

def bind {α β : Type} (x : Eff α) (f : α → Eff β) : Eff β := fun s =>
  match x s with
  | (.ret a, s') => f a s'
  | (.thrown e, s') => (.thrown e, s')
  | (.aborted, s') => (.aborted, s')
  | (.exited, s') => (.exited, s')
  | (.ub, s') => (.ub, s')

instance : Monad Eff where
  pure a := fun s => (.ret a, s)
  bind := bind

def throw {α : Type} (x : Exn) : Eff α := fun s => (.thrown x, s)
/-- `std::abort` -/
def abort {α : Type} : Eff α := fun s => (.aborted, s)
def exit {α : Type} : Eff α := fun s => (.exited, s)
def ub {α : Type} : Eff α := fun s => (.ub, s)
def get : Eff EffState := fun s => (.ret s, s)
def event (x : Event) : Eff Unit := fun s => (.ret (), { s with log := s.log ++ [x] })
def setReg (r : RegState) : Eff Unit := fun s => (.ret (), { s with reg := r })
def setHandler (h : Option Fn) : Eff Unit := fun s => (.ret (), { s with handler := h })

/-- Reading through a pointer or an index that may be invalid. -/
def ofOption {α : Type} : Option α → Eff α
  | some a => pure a
  | none => ub

/-- Calling a function provided by the user. -/
def ending : Ending → Eff Unit
  | .returns => pure ()
  | .throws n => throw (.user n)
  | .exits => exit

end Eff

/-- `default_handler` (default_error_handler.hpp 102-118). -/
def defaultHandler (output : Bool) (e : Err) : Eff Unit := do
  if output then Eff.event (.wrote e)

/-- `error_handler::error` (default_error_handler.hpp 86-88, throw_error_handler.hpp 30-44). -/
def handlerError (S : Setup) (e : Err) : Eff Unit := do
  match S.policy with
  | .none => pure ()
  | .default output =>
    match (← Eff.get).handler with
    | none => Eff.throw .badFunctionCall
    | some f =>
      Eff.event (.called (.fn f) e)
      match f with
      | .default => defaultHandler output e
      | .user n => Eff.ending (S.user n e (← Eff.get).log)
  | .throwing =>
    Eff.event (.called .policy e)
    Eff.throw (.library e)
  | .custom =>
    Eff.event (.called .policy e)
    Eff.ending (S.custom e (← Eff.get).log)

/-- `default_error_handler::set` (default_error_handler.hpp 98-100). -/
def setErrorHandler (f : Option Fn) : Eff (Option Fn) := do
  let old := (← Eff.get).handler
  Eff.setHandler f
  return old

/-- What is done at each site where an error is detected: `if constexpr (has_error_handler) { error_handler::error(error); } abort();` -/
def reportError (S : Setup) (e : Err) : Eff Unit := do
  if S.policy.hasHandler then handlerError S e
  Eff.abort

/-- Code that reports no error. -/
def Eff.ofRes {α : Type} (S : Setup) : Res α → Eff α
  | .ok a => pure a
  | .err e => do
    reportError S e
    Eff.ub
  | .ub => Eff.ub

/-! ## Calls -/

/-- `require_initialized` (preamble.hpp 1060-1070). -/
def requireInitializedE (S : Setup) (cfg : Config) (s : RegState) : Eff Unit := do
  if cfg.checks then
    if !s.initialized then
      reportError S .notInitialized

/-- `check` (fast_perfect_hash.hpp 250-262). -/
def hashCheckE (S : Setup) (s : HashState) (index : Nat) (t : TypeId) : Eff Unit := do
  if index < s.min ∨ s.max < index then reportError S (.missingClass t)
  else
    let b ← Eff.ofOption s.buckets[index]?
    if b ≠ t then reportError S (.missingClass t)

/-- `hash` (fast_perfect_hash.hpp 129-138). -/
def hashE (S : Setup) (checks : Bool) (s : HashState) (t : TypeId) : Eff Nat := do
  let index := hashIndex s.mult s.shift t
  if checks then hashCheckE S s index t
  return index

/-- `return *vptrs[index]` and so on. -/
def Stored.refE (cfg : Config) : Stored → Eff VRef
  | .null => if cfg.indirect then Eff.ub else pure (.value none)
  | .direct p => pure (.value p)
  | .indirect v => pure (.var v)

/-- `vptr_vector::dynamic_vptr` (vptr_vector.hpp 135-170). -/
def vectorVptrE (S : Setup) (cfg : Config) (s : VptrState) (t : TypeId) : Eff VRef := do
  let mut index := t.toNat
  if cfg.typeHash then
    index ← hashE S cfg.checks s.hash t
  else
    if cfg.checks then
      if s.vec.length ≤ index then
        reportError S (.missingClass t)
  let x ← Eff.ofOption s.vec[index]?
  x.refE cfg

/-- `vptr_map::dynamic_vptr` (vptr_map.hpp 81-105). -/
def mapVptrE (S : Setup) (cfg : Config) (s : VptrState) (t : TypeId) : Eff VRef := do
  let iter := s.map.find? (fun y => y.1 == t)
  if cfg.checks then
    if iter.isNone then
      reportError S (.missingClass t)
  let x ← Eff.ofOption iter
  x.2.refE cfg

def dynamicVptrE (S : Setup) (cfg : Config) (s : VptrState) (t : TypeId) : Eff VRef :=
  if cfg.vector then vectorVptrE S cfg s t else mapVptrE S cfg s t

/-- `acquire_vptr` (core.hpp 528-537). -/
def acquireVptrE (S : Setup) (cfg : Config) (s : RegState) (t : TypeId) : Eff VRef := do
  requireInitializedE S cfg s
  dynamicVptrE S cfg s.vptr t

/-- Constructing a `virtual_ptr` from an object. -/
def makeVirtualPtrE (S : Setup) (cfg : Config) (s : RegState) (t : TypeId) : Eff Boxed := do
  let r ← acquireVptrE S cfg s t
  Eff.ofRes S (boxVptr cfg r)

/-- `final_virtual_ptr` (core.hpp 583-622). -/
def finalVirtualPtrE (S : Setup) (cfg : Config) (s : RegState) (poly : Bool) (st : TypeId) (v : VarId) (q : Option Obj) : Eff VirtualPtr := do
  requireInitializedE S cfg s
  if cfg.checks && poly then
    let o ← Eff.ofOption q
    if o.type ≠ st then
      reportError S (.finalError st o.type)
  let vptr ← Eff.ofOption (s.svptr v)
  return { vp := .boxed (if cfg.indirect then .indirect v else .direct (some vptr)), obj := .ofOption q }

/-- `method::vptr` (core.hpp 2475-2482). -/
def argPtrE (S : Setup) (cfg : Config) (s : RegState) : Arg → Eff Ptr
  | .obj t => do
    let r ← acquireVptrE S cfg s t
    Eff.ofOption (r.read s.svptr)
  | .vptr b => Eff.ofOption (unboxVptr s b)

/-- `resolve_uni` (core.hpp 2488-2502). Reading words reports no error. -/
def resolveUniE (S : Setup) (rd : Ptr → Res Word) (ss : List Nat) : List Bool → List (Eff Ptr) → Eff Word
  | true :: _, a :: _ => do
    let vtbl ← a
    let slot ← Eff.ofOption ss[0]?
    Eff.ofRes S (rd (vtbl.add slot))
  | false :: ks, _ :: as => resolveUniE S rd ss ks as
  | _, _ => Eff.ub

def nextDispatchE (S : Setup) (rd : Ptr → Res Word) (ss : List Nat) (arity va : Nat) (dispatch : Ptr) (virt : Bool) (a : Eff Ptr) : Eff Ptr := do
  if virt then
    let vtbl ← a
    let slot ← Eff.ofOption ss[va]?
    let stride ← Eff.ofOption ss[arity + va - 1]?
    let w ← Eff.ofRes S (rd (vtbl.add slot))
    let i ← Eff.ofRes S w.asIdx
    return dispatch.add (i * stride)
  else return dispatch

/-- `resolve_multi_next` (core.hpp 2538-2559). -/
def resolveMultiNextE (S : Setup) (rd : Ptr → Res Word) (ss : List Nat) (arity : Nat) : Nat → Ptr → List Bool → List (Eff Ptr) → Eff Word
  | va, dispatch, k :: ks, a :: as => do
    let dispatch ← nextDispatchE S rd ss arity va dispatch k a
    if va + 1 = arity then Eff.ofRes S (rd dispatch)
    else resolveMultiNextE S rd ss arity (va + 1) dispatch ks as
  | _, _, _, _ => Eff.ub

/-- `resolve_multi_first` (core.hpp 2508-2530). -/
def resolveMultiFirstE (S : Setup) (rd : Ptr → Res Word) (ss : List Nat) (arity : Nat) : List Bool → List (Eff Ptr) → Eff Word
  | true :: ks, a :: as => do
    let vtbl ← a
    let slot ← Eff.ofOption ss[0]?
    let w ← Eff.ofRes S (rd (vtbl.add slot))
    let dispatch ← Eff.ofRes S w.asPtr
    resolveMultiNextE S rd ss arity 1 dispatch ks as
  | false :: ks, _ :: as => resolveMultiFirstE S rd ss arity ks as
  | _, _ => Eff.ub

def resolveE (S : Setup) (rd : Ptr → Res Word) (ss : List Nat) (arity : Nat) (params : List Bool) (args : List (Eff Ptr)) : Eff Pf := do
  let w ← if arity = 1 then resolveUniE S rd ss params args else resolveMultiFirstE S rd ss arity params args
  Eff.ofRes S w.asPf

/-- Calling the function: an overrider, or `fn_not_implemented` or `fn_ambiguous` (core.hpp 2583-2614), after which nothing is returned: reaching the end of
a function that returns a value is undefined behaviour. -/
def enterE (S : Setup) (f : Pf) (types : List TypeId) : Eff Nat := do
  match f with
  | .user n => return n
  | .notImplemented _ =>
    reportError S (.noOverrider (badCallArity types) (badCallTypes types))
    Eff.ub
  | .ambiguous _ =>
    reportError S (.ambiguousCall (badCallArity types) (badCallTypes types))
    Eff.ub

/-- A call (core.hpp 2432-2470). -/
def callE (S : Setup) (cfg : Config) (s : RegState) (m : MethodInfo) (args : List Arg) (types : List TypeId) : Eff Nat := do
  requireInitializedE S cfg s
  let ss ← Eff.ofOption (s.ss m.id)
  let f ← resolveE S (readWord s.gen s.data) ss m.arity m.params (args.map (argPtrE S cfg s))
  enterE S f types

/-! ## initialize -/

/-- Body of the second loop of `augment_classes` (initialize.hpp 578-598). Going on with a null `rtb` is undefined behaviour. -/
def addBaseE (S : Setup) (r : Rtti) (c : Cls) (s : Lattice) (t : TypeId) : Eff Lattice := do
  let b := r.ti t
  if b ∉ s.order then
    reportError S (.missingClass t)
    Eff.ub
  else if c = b then return s
  else return { s with tb := Function.update s.tb c (s.tb c ++ collect s.tb (s.order.length + 1) [] b) }

def addBasesE (S : Setup) (r : Rtti) (s : Lattice) (cr : ClassInfo) : Eff Lattice := cr.bases.foldlM (addBaseE S r (r.ti cr.type)) s

/-- `augment_classes` (initialize.hpp 535-673). -/
def augmentClassesE (S : Setup) (pl : Platform) (r : Rtti) (classes : List ClassInfo) : Eff Lattice := do
  let s := classes.foldl (addClass r) Lattice.empty
  let s ← classes.foldlM (addBasesE S r) s
  let tb := fun c => dedup (s.tb c)
  let tb' := fun c => pl.sort (fun x => (tb x).length) (tb c)
  let db := fun c => (directScan tb' (tb' c)).2
  let dd := directDerived s.order db
  let td := s.order.foldl (calcDerived pl dd (s.order.length + 1)) (fun _ => [])
  return { s with tb := tb', db := db, dd := dd, td := td }

/-- initialize.hpp 727-743, 788-805, 813-825. Going on without a class is undefined behaviour. -/
def findClassE (S : Setup) (r : Rtti) (L : Lattice) (t : TypeId) : Eff Cls := do
  if r.ti t ∉ L.order then
    reportError S (.missingClass t)
    Eff.ub
  else return r.ti t

def findClassesE (S : Setup) (r : Rtti) (L : Lattice) : List TypeId → Eff (List Cls)
  | [] => pure []
  | t :: ts => do
    let c ← findClassE S r L t
    let cs ← findClassesE S r L ts
    return c :: cs

def augmentOverriderE (S : Setup) (r : Rtti) (L : Lattice) (mret : Option Cls) (o : OverriderInfo) : Eff Ovr := do
  let vp ← findClassesE S r L o.vp
  match mret with
  | none => return { info := o, vp := vp, ret := none }
  | some _ => do
    let c ← findClassE S r L o.ret
    return { info := o, vp := vp, ret := some c }

def augmentOverridersE (S : Setup) (r : Rtti) (L : Lattice) (mret : Option Cls) : List OverriderInfo → Eff (List Ovr)
  | [] => pure []
  | o :: os => do
    let o' ← augmentOverriderE S r L mret o
    let os' ← augmentOverridersE S r L mret os
    return o' :: os'

def augmentMethodE (S : Setup) (r : Rtti) (L : Lattice) (m : MethodInfo) : Eff Meth := do
  let vp ← findClassesE S r L m.vp
  let ret := methodRet r L m.ret
  let os ← augmentOverridersE S r L ret m.overriders
  return { info := m, vp := vp, ret := ret, overriders := os }

def augmentMethodsE (S : Setup) (r : Rtti) (L : Lattice) : List MethodInfo → Eff (List Meth)
  | [] => pure []
  | m :: ms => do
    let m' ← augmentMethodE S r L m
    let ms' ← augmentMethodsE S r L ms
    return m' :: ms'

/-- initialize.hpp 839-853. -/
def checkOverriderE (S : Setup) (L : Lattice) (vp : Cls) (k : Nat) (o : Ovr) : Eff Unit := do
  let c ← Eff.ofOption o.vp[k]?
  if c = vp then return ()
  if c ∉ L.td vp then
    let base ← Eff.ofOption (L.typeIds c)[0]?
    let derived ← Eff.ofOption (L.typeIds vp)[0]?
    reportError S (.missingBase base derived)

def checkParamE (S : Setup) (L : Lattice) (os : List Ovr) (vk : Cls × Nat) : Eff Unit := os.foldlM (fun _ o => checkOverriderE S L vk.1 vk.2 o) ()

def checkMethodE (S : Setup) (L : Lattice) (m : Meth) : Eff Unit := m.vp.zipIdx.foldlM (fun _ vk => checkParamE S L m.overriders vk) ()

def checkMethodsE (S : Setup) (L : Lattice) (ms : List Meth) : Eff Unit := ms.foldlM (fun _ m => checkMethodE S L m) ()

/-- `augment_methods` (initialize.hpp 700-859). -/
def augmentE (S : Setup) (r : Rtti) (L : Lattice) (ms : List MethodInfo) : Eff (List Meth) := do
  let ms ← augmentMethodsE S r L ms
  checkMethodsE S L ms
  return ms

/-- `compile` (initialize.hpp 460-469). There are no errors after `augment_methods`. -/
def compileE (S : Setup) (pl : Platform) (n2216 : Bool) (p : Program) : Eff Compiled := do
  let L ← augmentClassesE S pl p.rtti p.classes
  let ms ← augmentE S p.rtti L p.methods
  let s := assignSlots pl L (usedByVp ms)
  let vtbl ← Eff.ofRes S ((allWrites pl L s.slots ms).foldlM (writeEntry s.first) (fun c => List.replicate (s.size c) { method := 0, vp := 0, group := 0 }))
  let ts ← Eff.ofRes S (buildMethods pl n2216 L ms)
  return { lattice := L, meths := ms, slots := s, tables := ts, vtbl := vtbl, report := accumulate ts }

def storeVecE (S : Setup) (cfg : Config) (h : HashState) (vec : List Stored) (x : TypeId × Stored) : Eff (List Stored) := do
  let mut i := x.1.toNat
  if cfg.typeHash then
    i ← hashE S cfg.checks h x.1
  if i < vec.length then return vec.set i x.2
  else Eff.ub

def fillVecE (S : Setup) (cfg : Config) (mem : VarId → Option Ptr) (cs : List CtxClass) (s : VptrState) (size : Nat) : Eff VptrState := do
  let vec ← (ctxPairs cfg mem cs).foldlM (storeVecE S cfg s.hash) (resize s.vec size .null)
  return { s with vec := vec }

/-- `vptr::initialize` (vptr_vector.hpp 66-115, vptr_map.hpp 46-64) and `fast_perfect_hash::initialize` (fast_perfect_hash.hpp 166-247) in state `reg`. The
vector of the hash is not used if the search fails. -/
def vptrInitE (S : Setup) (cfg : Config) (rnd : Nat → BitVec 64) (cs : List CtxClass) (reg : RegState) : Eff VptrState := do
  let s := reg.vptr
  if cfg.vector then
    if cfg.typeHash then
      let r ← Eff.ofRes S (hashInit rnd cs.length (cs.flatMap (·.ids)) (bucketsBefore cfg s.hash))
      match r with
      | .found h => fillVecE S cfg reg.svptr cs { s with hash := h } (h.max + 1)
      | .failed attempts buckets h =>
        Eff.setReg { reg with vptr := { s with hash := h.state } }
        reportError S (.searchError attempts buckets)
        Eff.ub
    else fillVecE S cfg reg.svptr cs s (vecSize (cs.flatMap (·.ids)))
  else
    return { s with map := (ctxPairs cfg reg.svptr cs).foldl (fun m x => if m.any (fun y => y.1 == x.1) then m else m ++ [x]) [] }

/-- `initialize` (initialize.hpp 460-477, 1294-1415, 1612-1629). `odrCount` is `odr_check<Registry>::count`. -/
def initE (S : Setup) (E : Env) (odrCount : Nat) (p : Program) : Eff Report := do
  if 1 < odrCount then
    reportError S .odrViolation
  let c ← compileE S E.platform E.n2216 p
  let s := (← Eff.get).reg
  let img ← Eff.ofRes S (writeGlobal c s.fresh)
  let s1 := applyImage c.lattice img s
  Eff.setReg s1
  let v ← vptrInitE S E.cfg E.rnd (ctxClasses c.lattice) s1
  Eff.setReg { s1 with vptr := v, data := img.data, gen := s.fresh, initialized := true }
  return c.report

/-! ## Uses of the library -/

/-- What a program can do with a registry, once classes and methods are registered. -/
inductive LibOp where
  | init (E : Env) (odrCount : Nat) (p : Program)
  | final (E : Env)
  | call (m : MethodInfo) (args : List Arg) (types : List TypeId)
  | virtualPtr (t : TypeId)
  | finalVirtualPtr (poly : Bool) (st : TypeId) (v : VarId) (q : Option Obj)
  /-- `default_error_handler::set` -/
  | setHandler (f : Option Fn)

/-- What is returned. -/
inductive LibVal where
  | unit
  | report (r : Report)
  /-- the overrider that was entered -/
  | entered (n : Nat)
  | boxed (b : Boxed)
  | ptr (w : VirtualPtr)
  | handler (f : Option Fn)
  deriving DecidableEq

def LibOp.run (S : Setup) (cfg : Config) : LibOp → Eff LibVal
  | .init E n p => return .report (← initE S E n p)
  | .final E => do
    Eff.setReg (finalize E (← Eff.get).reg)
    return .unit
  | .call m args types => do return .entered (← callE S cfg (← Eff.get).reg m args types)
  | .virtualPtr t => do return .boxed (← makeVirtualPtrE S cfg (← Eff.get).reg t)
  | .finalVirtualPtr poly st v q => do return .ptr (← finalVirtualPtrE S cfg (← Eff.get).reg poly st v q)
  | .setHandler f => return .handler (← setErrorHandler f)

end OpenMethod
