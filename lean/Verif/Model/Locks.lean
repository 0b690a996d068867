import Verif.Model.Loading

/-!
# Threads that use locks

The library has no locks. Here, the program has one readers-writer lock (`std::shared_mutex`) for each registry: a thread locks it in shared mode for operations that only use the
registry, and in exclusive mode for all others, and unlocks it when the operation has ended. The accesses are those of `Model.Loading`.

Simplification: the lock is acquired together with the beginning of the operation, and released together with its end. A thread that cannot acquire the lock waits: it makes no step.
-/

namespace OpenMethod

/-- The threads that hold a lock: in shared mode, in exclusive mode. -/
structure Lock where
  readers : List Nat
  writer : Option Nat
  deriving DecidableEq, Repr

def Lock.free : Lock := { readers := [], writer := none }

/-- `lock` or `lock_shared` by thread `i`. `none`: it has to wait. -/
def Lock.acquire (i : Nat) (exclusive : Bool) (l : Lock) : Option Lock :=
  if l.writer.isSome then none
  else if exclusive then
    if l.readers.isEmpty then some { l with writer := some i } else none
  else some { l with readers := i :: l.readers }

/-- `unlock` or `unlock_shared` by thread `i`. -/
def Lock.release (i : Nat) (l : Lock) : Lock :=
  if l.writer = some i then { l with writer := none } else { l with readers := l.readers.erase i }

/-- The mode in which the lock of the registry is acquired for an operation. -/
def LOp.exclusive : LOp → Bool
  | .use _ _ => false
  | _ => true

structure KSys where
  sys : LSys
  lock : RegId → Lock

def KSys.start (mem : RegId → Home) : KSys := { sys := .start mem, lock := fun _ => .free }

def KSys.step (L : RegId → Setting) (strategy : Nat → LStrategy) (K : KSys) (i : Nat) : Option KSys :=
  match (K.sys.threads i).cur with
  | none => match strategy i (K.sys.threads i).past with
    | none => none
    | some (r, op) => ((K.lock r).acquire i op.exclusive).bind fun l => (K.sys.step L strategy i).map fun S => { sys := S, lock := Function.update K.lock r l }
  | some (r, .done _) => (K.sys.step L strategy i).map fun S => { sys := S, lock := Function.update K.lock r ((K.lock r).release i) }
  | some _ => (K.sys.step L strategy i).map fun S => { K with sys := S }

end OpenMethod
