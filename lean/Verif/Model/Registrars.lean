import Verif.Model.Input
import Verif.Model.StaticList

/-!
# Registrars (core.hpp 343-398, 2393-2430, 2733-2800; preamble.hpp 308-372)

Static objects that add records to the lists of a registry when they are constructed, and remove them when they are destroyed:
`use_class_aux` (one per class and `use_classes` object), `method::fn`, and `override_impl` (one per overrider). All are
identified by their addresses. They are constructed and destroyed when modules are loaded and unloaded, in an order that C++
leaves open, because `fn` and `impl` are static members of templates.
-/

namespace OpenMethod

/-- What is fixed at compile time and link time in the records: addresses of variables and functions, shape of the parameter
lists. -/
structure Decls where
  /-- `&Registry::static_vptr<Class>` (core.hpp 356) -/
  staticVptr : Nat → VarId
  /-- `std::is_abstract_v<Class>` (core.hpp 355) -/
  isAbstract : Nat → Bool
  /-- parameters of methods, `true` for virtual ones -/
  params : Nat → List Bool
  /-- thunks (core.hpp 2776) -/
  pf : Nat → Nat → Nat
  /-- `&method::next<Function>` (core.hpp 2772-2773) -/
  next : Nat → Nat → VarId

/-- Type ids of all records. Used for what `rtti::static_type` returns at a given time (with custom rtti, it can change while
static objects are being constructed), and for what is stored in the records. Overriders are designated by their method and
their address. -/
structure Ids where
  cls : Nat → TypeId
  bases : Nat → List TypeId
  vp : Nat → List TypeId
  ret : Nat → TypeId
  ovp : Nat → Nat → List TypeId
  oret : Nat → Nat → TypeId

/-- Zero-initialised storage. -/
def Ids.zero : Ids where
  cls _ := 0
  bases _ := []
  vp _ := []
  ret _ := 0
  ovp _ _ := []
  oret _ _ := 0

/-- `use_class_aux::resolve_type_ids` (core.hpp 366-370). -/
def Ids.resolveClass (now : Ids) (s : Ids) (c : Nat) : Ids :=
  { s with cls := Function.update s.cls c (now.cls c), bases := Function.update s.bases c (now.bases c) }

/-- `method::resolve_type_ids` (core.hpp 2412-2424). `method_type_id` is only used in traces. -/
def Ids.resolveMethod (now : Ids) (s : Ids) (m : Nat) : Ids :=
  { s with vp := Function.update s.vp m (now.vp m), ret := Function.update s.ret m (now.ret m) }

/-- `override_impl::resolve_type_ids` (core.hpp 2787-2800). `type` is only used in traces. -/
def Ids.resolveOverrider (now : Ids) (s : Ids) (m o : Nat) : Ids :=
  { s with
    ovp := Function.update s.ovp m (Function.update (s.ovp m) o (now.ovp m o))
    oret := Function.update s.oret m (Function.update (s.oret m) o (now.oret m o)) }

/-- The lists of a registry and the records. -/
structure Registrars where
  /-- `Registry::classes` -/
  classes : SList
  /-- `Registry::methods` -/
  methods : SList
  /-- `method_info::overriders` of each method. Its nodes have types nested in the method, hence are not shared. -/
  overriders : Nat → SList
  /-- `overrider_info::method` is not null; if so, it is `&fn` -/
  attached : Nat → Nat → Bool
  /-- type ids in the records -/
  ids : Ids

/-- Zero-initialised storage. -/
def Registrars.init : Registrars where
  classes := .init
  methods := .init
  overriders _ := .init
  attached _ _ := false
  ids := .zero

/-- Events. -/
inductive RegEvent where
  /-- construction of `use_class_aux` -/
  | useClass (c : Nat)
  /-- its destruction -/
  | dropClass (c : Nat)
  /-- construction of `method::fn` -/
  | declare (m : Nat)
  /-- its destruction -/
  | undeclare (m : Nat)
  /-- construction of `override_impl` -/
  | override (m o : Nat)
  /-- its destruction -/
  | drop (m o : Nat)
  /-- the storage of an `override_impl` is unmapped; when the module is loaded again, it is zero-initialised -/
  | unmapOverrider (m o : Nat)
  /-- the same for `method::fn` -/
  | unmapMethod (m : Nat)
  deriving DecidableEq, Repr

/-- A static object. -/
inductive RegObj where
  | cls (c : Nat)
  | meth (m : Nat)
  | ovr (m o : Nat)
  deriving DecidableEq, Repr

/-- The object that an event concerns. -/
def RegEvent.obj : RegEvent → RegObj
  | .useClass c => .cls c
  | .dropClass c => .cls c
  | .declare m => .meth m
  | .undeclare m => .meth m
  | .override m o => .ovr m o
  | .drop m o => .ovr m o
  | .unmapOverrider m o => .ovr m o
  | .unmapMethod m => .meth m

/-- One event, at a time when `static_type` returns `now`. `deferred`: the registry has policy `deferred_static_rtti`. -/
def Registrars.step (deferred : Bool) (now : Ids) (s : Registrars) : RegEvent → Res Registrars
  -- core.hpp 352-364
  | .useClass c => do
    let ids := if deferred then s.ids else now.resolveClass s.ids c
    let l ← s.classes.pushBack c
    return { s with classes := l, ids := ids }
  -- core.hpp 372-374
  | .dropClass c => do
    let l ← s.classes.remove c
    return { s with classes := l }
  -- core.hpp 2393-2410. The default constructor of the list `overriders` does not initialise it: overriders may have been
  -- added before.
  | .declare m => do
    let ids := if deferred then s.ids else now.resolveMethod s.ids m
    let l ← s.methods.pushBack m
    return { s with methods := l, ids := ids }
  -- core.hpp 2428-2430
  | .undeclare m => do
    let l ← s.methods.remove m
    return { s with methods := l }
  -- core.hpp 2734-2782
  | .override m o =>
    if s.attached m o then .ok s
    else do
      let ids := if deferred then s.ids else now.resolveOverrider s.ids m o
      let l ← (s.overriders m).pushBack o
      return { s with
        attached := Function.update s.attached m (Function.update (s.attached m) o true)
        overriders := Function.update s.overriders m l
        ids := ids }
  -- preamble.hpp 356-358: dereferences `method`, which is not reset
  | .drop m o =>
    if s.attached m o then do
      let l ← (s.overriders m).remove o
      return { s with overriders := Function.update s.overriders m l }
    else .ub
  | .unmapOverrider m o =>
    .ok { s with
      attached := Function.update s.attached m (Function.update (s.attached m) o false)
      overriders := Function.update s.overriders m { s.overriders m with
        prev := Function.update (s.overriders m).prev o none
        next := Function.update (s.overriders m).next o none } }
  | .unmapMethod m =>
    .ok { s with overriders := Function.update s.overriders m { s.overriders m with first := none } }

/-- A sequence of events, each with the type ids at that time. -/
def Registrars.run (deferred : Bool) (s : Registrars) (es : List (RegEvent × Ids)) : Res Registrars :=
  es.foldlM (fun s e => s.step deferred e.2 e.1) s

/-- Collection of the results of a loop. -/
def collectAll {α β : Type} (f : α → Option β) : List α → Option (List β)
  | [] => some []
  | a :: l => do
    let b ← f a
    let bs ← collectAll f l
    return b :: bs

/-- The calls to `resolve_type_ids` in `initialize` (initialize.hpp 546-548, 712-714, 773-776). `ms` are the methods with their
overriders. Simplification: they are done together before the records are read. The code does them record by record, each before
the record is read; it does not get to the last ones if it reports an error before, which has no effect, as the next
`initialize` does them again. -/
def Ids.resolveAll (now : Ids) (cs : List Nat) (ms : List (Nat × List Nat)) (ids : Ids) : Ids :=
  ms.foldl (fun ids mo => mo.2.foldl (fun ids o => now.resolveOverrider ids mo.1 o) (now.resolveMethod ids mo.1))
    (cs.foldl now.resolveClass ids)

/-- An overrider as `initialize` reads it. -/
def readOverrider (D : Decls) (ids : Ids) (m o : Nat) : OverriderInfo where
  vp := ids.ovp m o
  ret := ids.oret m o
  pf := D.pf m o
  next := D.next m o

/-- A method as `initialize` reads it. -/
def readMethod (D : Decls) (ids : Ids) (m : Nat) (os : List Nat) : MethodInfo where
  id := m
  params := D.params m
  vp := ids.vp m
  ret := ids.ret m
  overriders := os.map (readOverrider D ids m)

/-- A class record as `initialize` reads it. -/
def readClass (D : Decls) (ids : Ids) (c : Nat) : ClassInfo where
  type := ids.cls c
  bases := ids.bases c
  isAbstract := D.isAbstract c
  staticVptr := D.staticVptr c

/-- What `initialize` finds in the registry (the loops over `registry::classes`, `registry::methods` and
`meth_info.overriders`, initialize.hpp 545, 575, 711, 772), at a time when `static_type` returns `now`; `none` if a loop does not
end within `fuel` iterations. -/
def Registrars.program (deferred : Bool) (D : Decls) (rtti : Rtti) (fuel : Nat) (now : Ids) (s : Registrars) : Option Program := do
  let cs ← s.classes.iterate fuel
  let ms ← s.methods.iterate fuel
  let ms ← collectAll (fun m => ((s.overriders m).iterate fuel).map (m, ·)) ms
  let ids := if deferred then now.resolveAll cs ms s.ids else s.ids
  return { rtti := rtti, classes := cs.map (readClass D ids), methods := ms.map fun mo => readMethod D ids mo.1 mo.2 }

end OpenMethod
