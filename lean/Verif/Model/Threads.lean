import Verif.Model.Cost
import Verif.Model.Memory
import Verif.Model.World

/-!
# Threads (core.hpp 528-554, 2432-2582, initialize.hpp 447-477, 1294-1415, 1611-1657)

The operations of a registry as programs that access its variables one after the other, and what happens when several threads execute such programs: any interleaving of their accesses. An access of a thread and a
write by another thread to the same variable is a data race, if nothing forces one to happen before the other; the library contains no atomic variable, mutex or other synchronisation. Accesses to the variables of the
policies are those of `Cost`; `initialize` and `finalize` write all of them at once. The lists of registered classes, methods and overriders, and the error handler, are not changed. Variables of distinct
registries are distinct (C45).
-/

namespace OpenMethod

/-- What is obtained by a read. -/
abbrev Load.Val : Load → Type
  | .initialized => Bool
  | .slotsStrides _ _ => Option Nat
  | .word _ => Res Word
  | .type _ => Unit
  | .mult => BitVec 64
  | .shift => Nat
  | .min => Nat
  | .max => Nat
  | .control => Unit
  | .controlAt _ => Option TypeId
  | .size => Nat
  | .vector => Unit
  | .vectorAt _ => Option Stored
  | .find _ => Option (TypeId × Stored)
  | .static _ => Option Ptr
  | .next _ => Option Pf

def Load.get (s : RegState) : (l : Load) → l.Val
  | .initialized => s.initialized
  | .slotsStrides m i => (s.ss m).bind (·[i]?)
  | .word p => readWord s.gen s.data p
  | .type _ => ()
  | .mult => s.vptr.hash.mult
  | .shift => s.vptr.hash.shift
  | .min => s.vptr.hash.min
  | .max => s.vptr.hash.max
  | .control => ()
  | .controlAt i => s.vptr.hash.buckets[i]?
  | .size => s.vptr.vec.length
  | .vector => ()
  | .vectorAt i => s.vptr.vec[i]?
  | .find t => s.vptr.map.find? fun y => y.1 == t
  | .static v => s.svptr v
  | .next v => s.next v

/-- A variable, or group of variables, of a registry. -/
inductive Loc where
  | initialized
  | slotsStrides (method : Nat)
  | words
  | hash
  | control
  | vector
  | map
  | static (v : VarId)
  | next (v : VarId)
  deriving DecidableEq, Repr

/-- Where a read looks; the dynamic type is not in a variable of the registry. -/
def Load.loc : Load → Option Loc
  | .initialized => some .initialized
  | .slotsStrides m _ => some (.slotsStrides m)
  | .word _ => some .words
  | .type _ => none
  | .mult | .shift | .min | .max => some .hash
  | .control | .controlAt _ => some .control
  | .size | .vector | .vectorAt _ => some .vector
  | .find _ => some .map
  | .static v => some (.static v)
  | .next v => some (.next v)

inductive Write where
  /-- the new dispatch data, not yet visible -/
  | allocate
  | global (x : Store)
  | policies (v : VptrState)
  | data (d : List Word) (gen : Nat)
  | initialized (b : Bool)

def Write.apply (s : RegState) : Write → RegState
  | .allocate => { s with fresh := s.fresh + 1 }
  | .global x => x.apply s
  | .policies v => { s with vptr := v }
  | .data d g => { s with data := d, gen := g }
  | .initialized b => { s with initialized := b }

def Write.locs : Write → List Loc
  | .allocate => []
  | .global (.slotsStrides m _) => [.slotsStrides m]
  | .global (.next v _) => [.next v]
  | .global (.svptr v _) => [.static v]
  | .policies _ => [.hash, .control, .vector, .map]
  | .data _ _ => [.words]
  | .initialized _ => [.initialized]

/-- A program that accesses the variables of one registry. -/
inductive Prog (α : Type) where
  | done (r : Res α)
  | load (l : Load) (k : l.Val → Prog α)
  /-- `initialize` and `finalize` read the variables of the policies -/
  | inspect (k : RegState → Prog α)
  | write (w : Write) (k : Prog α)

namespace Prog

def bind {α β : Type} : Prog α → (α → Prog β) → Prog β
  | .done (.ok a), f => f a
  | .done (.err e), _ => .done (.err e)
  | .done .ub, _ => .done .ub
  | .load l k, f => .load l fun v => (k v).bind f
  | .inspect k, f => .inspect fun s => (k s).bind f
  | .write w k, f => .write w (k.bind f)

instance : Monad Prog where
  pure a := .done (.ok a)
  bind := bind

def read (l : Load) : Prog l.Val := .load l fun v => .done (.ok v)

/-! ## Calls, as in `Cost` -/

def requireInitialized (cfg : Config) : Prog Unit :=
  if cfg.checks then do
    let b ← read .initialized
    .done (if !b then .err .notInitialized else .ok ())
  else .done (.ok ())

def hashCheck (index : Nat) (t : TypeId) : Prog Unit := do
  let mn ← read .min
  if index < mn then .done (.err (.missingClass t))
  else do
    let mx ← read .max
    if mx < index then .done (.err (.missingClass t))
    else do
      let _ ← read .control
      match ← read (.controlAt index) with
      | none => .done .ub
      | some b => .done (if b ≠ t then .err (.missingClass t) else .ok ())

def hash (checks : Bool) (t : TypeId) : Prog Nat := do
  let mult ← read .mult
  let shift ← read .shift
  let index := hashIndex mult shift t
  if checks then hashCheck index t else .done (.ok ())
  .done (.ok index)

def dynamicVptr (cfg : Config) (t : TypeId) : Prog VRef := do
  let _ ← read (.type t)
  if cfg.vector then do
    let i ← if cfg.typeHash then hash cfg.checks t else .done (.ok t.toNat)
    if !cfg.typeHash && cfg.checks then do
      let n ← read .size
      .done (if n ≤ i then .err (.missingClass t) else .ok ())
    else .done (.ok ())
    let _ ← read .vector
    match ← read (.vectorAt i) with
    | none => .done .ub
    | some x => .done (x.ref cfg)
  else do
    match ← read (.find t) with
    | none => .done (if cfg.checks then .err (.missingClass t) else .ub)
    | some x => .done (x.2.ref cfg)

def acquireVptr (cfg : Config) (t : TypeId) : Prog VRef := do
  requireInitialized cfg
  dynamicVptr cfg t

def follow : VRef → Prog Ptr
  | .value p => .done (Res.ofOption p)
  | .var v => do
    let p ← read (.static v)
    .done (Res.ofOption p)

def argPtr (cfg : Config) : Arg → Prog Ptr
  | .obj t => do
    let r ← acquireVptr cfg t
    follow r
  | .vptr (.direct p) => .done (Res.ofOption p)
  | .vptr (.indirect v) => follow (.var v)

def word (p : Ptr) : Prog Word := do
  let w ← read (.word p)
  .done w

def slotStride (m : Nat) (i : Nat) : Prog Nat := do
  let n ← read (.slotsStrides m i)
  .done (Res.ofOption n)

def resolveUni (m : Nat) : List Bool → List (Prog Ptr) → Prog Word
  | true :: _, a :: _ => do
    let vtbl ← a
    let slot ← slotStride m 0
    word (vtbl.add slot)
  | false :: ks, _ :: as => resolveUni m ks as
  | _, _ => .done .ub

def nextDispatch (m : Nat) (arity va : Nat) (dispatch : Ptr) (virt : Bool) (a : Prog Ptr) : Prog Ptr :=
  if virt then do
    let vtbl ← a
    let slot ← slotStride m va
    let stride ← slotStride m (arity + va - 1)
    let w ← word (vtbl.add slot)
    let i ← Prog.done w.asIdx
    .done (.ok (dispatch.add (i * stride)))
  else .done (.ok dispatch)

def resolveMultiNext (m : Nat) (arity : Nat) : Nat → Ptr → List Bool → List (Prog Ptr) → Prog Word
  | va, dispatch, k :: ks, a :: as => do
    let dispatch ← nextDispatch m arity va dispatch k a
    if va + 1 = arity then word dispatch
    else resolveMultiNext m arity (va + 1) dispatch ks as
  | _, _, _, _ => .done .ub

def resolveMultiFirst (m : Nat) (arity : Nat) : List Bool → List (Prog Ptr) → Prog Word
  | true :: ks, a :: as => do
    let vtbl ← a
    let slot ← slotStride m 0
    let w ← word (vtbl.add slot)
    let dispatch ← Prog.done w.asPtr
    resolveMultiNext m arity 1 dispatch ks as
  | false :: ks, _ :: as => resolveMultiFirst m arity ks as
  | _, _ => .done .ub

def resolve (m : Nat) (arity : Nat) (params : List Bool) (args : List (Prog Ptr)) : Prog Pf := do
  let w ← if arity = 1 then resolveUni m params args else resolveMultiFirst m arity params args
  .done w.asPf

/-- A call, until the function that was selected is entered. -/
def call (cfg : Config) (m : MethodInfo) (args : List Arg) (types : List TypeId) : Prog Nat := do
  requireInitialized cfg
  let f ← resolve m.id m.arity m.params (args.map (argPtr cfg))
  .done (enter f types)

def makeVirtualPtr (cfg : Config) (t : TypeId) : Prog Boxed := do
  let r ← acquireVptr cfg t
  .done (boxVptr cfg r)

/-- `has_next` (core.hpp 2566-2578). -/
def hasNext (method : Nat) (v : VarId) : Prog Bool := do
  let f ← read (.next v)
  if f = some (.notImplemented method) then .done (.ok false)
  else do
    let f ← read (.next v)
    .done (.ok (f ≠ some (.ambiguous method)))

/-- Calling `next<Fn>` (core.hpp 2222-2233), a pointer to a function. -/
def callNext (v : VarId) (types : List TypeId) : Prog Nat := do
  let f ← read (.next v)
  let f ← Prog.done (Res.ofOption f)
  .done (enter f types)

/-! ## `initialize` and `finalize` -/

def writes {α : Type} (ws : List Write) (k : Prog α) : Prog α := ws.foldr .write k

/-- `initialize` (initialize.hpp 460-477, 1294-1415, 1611-1629): the stores in the order of the code. -/
def init (E : Env) (p : Program) : Prog (Except Err Report) :=
  .inspect fun s =>
    match compile E.platform E.n2216 p with
    | .ub => .done .ub
    | .err e => .done (.ok (.error e))
    | .ok c =>
      match writeGlobal c s.fresh with
      | .ub => .done .ub
      | .err e => .done (.ok (.error e))
      | .ok img =>
        writes (.allocate :: (stores c.lattice img s.fresh).map .global) (
          let s1 := applyImage c.lattice img s
          match vptrInit E.cfg E.rnd s1.svptr (ctxClasses c.lattice) s1.vptr with
          | .ub => .done .ub
          | .err e => .done (.ok (.error e))
          | .ok v =>
            .write (.policies v.state) (
              match v.error with
              | some e => .done (.ok (.error e))
              | none => writes [.data img.data s.fresh, .initialized true] (.done (.ok (.ok c.report)))))

/-- `finalize` (initialize.hpp 1646-1657). -/
def finalize (E : Env) : Prog Unit :=
  .inspect fun s => writes [.policies (vptrFinalize E.cfg s.vptr), .data [] s.gen, .initialized false] (.done (.ok ()))

end Prog

/-! ## Threads -/

/-- An operation on a registry. -/
inductive Op where
  | call (m : MethodInfo) (args : List Arg) (types : List TypeId)
  | make (t : TypeId)
  | hasNext (method : Nat) (v : VarId)
  | next (v : VarId) (types : List TypeId)
  | init (p : Program)
  | final

/-- Its result. An error is reported to the error handler, which throws. -/
inductive OpResult where
  | entered (n : Nat)
  | boxed (b : Boxed)
  | bool (b : Bool)
  | report (r : Except Err Report)
  | done
  | error (e : Err)

def OpResult.of {α : Type} (f : α → OpResult) : Res α → Res OpResult
  | .ok a => .ok (f a)
  | .err e => .ok (.error e)
  | .ub => .ub

def Prog.map {α : Type} (f : α → OpResult) : Prog α → Prog OpResult
  | .done r => .done (OpResult.of f r)
  | .load l k => .load l fun v => (k v).map f
  | .inspect k => .inspect fun s => (k s).map f
  | .write w k => .write w (k.map f)

def Op.prog (E : Env) : Op → Prog OpResult
  | .call m args types => (Prog.call E.cfg m args types).map .entered
  | .make t => (Prog.makeVirtualPtr E.cfg t).map .boxed
  | .hasNext m v => (Prog.hasNext m v).map .bool
  | .next v types => (Prog.callNext v types).map .entered
  | .init p => (Prog.init E p).map .report
  | .final => (Prog.finalize E).map fun _ => .done

/-- What a thread does next, depending on the results of its previous operations. -/
abbrev Strategy := List OpResult → Option (RegId × Op)

/-- A thread: the results of its operations, and what remains of the current one. -/
structure Thread where
  past : List OpResult
  cur : Option (RegId × Prog OpResult)

/-- The variables of all the registries, and the threads. -/
structure Sys where
  mem : RegId → RegState
  threads : Nat → Thread

def Sys.start (mem : RegId → RegState) : Sys := { mem := mem, threads := fun _ => { past := [], cur := none } }

/-- The next access of thread `i`; `none` if the thread ended, or if the program has undefined behaviour. -/
def Sys.step (E : RegId → Env) (strategy : Nat → Strategy) (S : Sys) (i : Nat) : Option Sys :=
  let t := S.threads i
  match t.cur with
  | none =>
    match strategy i t.past with
    | none => none
    | some (r, op) => some { S with threads := Function.update S.threads i { t with cur := some (r, op.prog (E r)) } }
  | some (_, .done (.ok o)) => some { S with threads := Function.update S.threads i { past := t.past ++ [o], cur := none } }
  | some (_, .done _) => none
  | some (r, .load l k) => some { S with threads := Function.update S.threads i { t with cur := some (r, k (l.get (S.mem r))) } }
  | some (r, .inspect k) => some { S with threads := Function.update S.threads i { t with cur := some (r, k (S.mem r)) } }
  | some (r, .write w k) => some { mem := Function.update S.mem r (w.apply (S.mem r)), threads := Function.update S.threads i { t with cur := some (r, k) } }

/-- The variables that a thread is about to read, and those it is about to write. -/
def Prog.reads {α : Type} : Prog α → Loc → Prop
  | .load l _, x => l.loc = some x
  | .inspect _, x => x = .hash ∨ x = .control ∨ x = .vector ∨ x = .map
  | _, _ => False

def Prog.changes {α : Type} : Prog α → Loc → Prop
  | .write w _, x => x ∈ w.locs
  | _, _ => False

/-- A data race: two threads are about to access the same variable, and at least one to write it. -/
def Sys.Race (S : Sys) : Prop :=
  ∃ i j r p q x, i ≠ j ∧ (S.threads i).cur = some (r, p) ∧ (S.threads j).cur = some (r, q) ∧ p.changes x ∧ (q.changes x ∨ q.reads x)

end OpenMethod
