import Verif.Model.Threads
import Verif.Model.Registrars

/-!
# Loading libraries and setting the error handler while other threads run

`Model.Threads` has the accesses to the tables of a registry. Here are also those to its lists of classes, methods and overriders, which are changed by the
constructors and destructors of the registrars, when libraries are loaded and unloaded (core.hpp 352-374, 2393-2430, 2734-2782; detail/static_list.hpp), and
those to the variable that holds the error handler (policies/default_error_handler.hpp 90-107, 127-131). None of the accesses is synchronised.

Simplifications:
* The lists of a registry, with the records, are one variable. A registrar reads it, then writes it: `push_back` and `remove` read the ends of the list and the
  links of the neighbours before they write them.
* `initialize` reads the lists once. The code reads them while it makes the classes and the methods, before it changes the tables.
* The registries do not have policy `deferred_static_rtti`, with which `initialize` writes to the records.
* The error handler returns, or throws an exception; then the operation has ended. It does not use the library.
-/

namespace OpenMethod

/-- The variables of a registry. -/
structure Home where
  /-- all that `initialize` writes -/
  tables : RegState
  /-- `Registry::classes`, `Registry::methods`, `method_info::overriders`, the records -/
  lists : Registrars
  /-- `default_error_handler::fn::handler`: the number of a function -/
  handler : Nat

/-- What is fixed when the program is compiled and linked. -/
structure Setting where
  env : Env
  decls : Decls
  rtti : Rtti
  /-- what `rtti::static_type` returns -/
  now : Ids
  /-- a bound on the iterations over the lists (see `Registrars.program`) -/
  fuel : Nat

/-- Operations of threads. -/
inductive LOp where
  /-- one that does not change the registry -/
  | use (op : Op) (h : (match op with | .init _ | .final => false | _ => true) = true)
  /-- `initialize<Registry>()`: with what is registered -/
  | init
  /-- `finalize<Registry>()` -/
  | final
  /-- a registrar is constructed or destroyed -/
  | register (e : RegEvent)
  /-- `Registry::error_handler::set(f)` (default_error_handler.hpp 105-107) -/
  | setHandler (f : Nat)

inductive LResult where
  | op (o : OpResult)
  /-- an error was reported to this function -/
  | reported (e : Err) (f : Nat)
  | registered
  /-- the previous error handler -/
  | previous (f : Nat)

/-- The error that an operation reports. -/
def OpResult.err? : OpResult → Option Err
  | .error e => some e
  | .report (.error e) => some e
  | _ => none

/-- Programs, with one access in each step. -/
inductive LProg where
  | done (o : LResult)
  /-- undefined behaviour -/
  | stuck
  /-- accesses to the tables; if it ends with an error, the handler is read, and called -/
  | tables (p : Prog OpResult)
  /-- reads the lists -/
  | lists (k : Registrars → LProg)
  /-- writes the lists -/
  | link (l : Registrars) (k : LProg)
  /-- reads the variable that holds the handler -/
  | handler (k : Nat → LProg)
  /-- writes it -/
  | install (f : Nat) (k : LProg)

def LOp.prog (L : Setting) : LOp → LProg
  | .use op _ => .tables (op.prog L.env)
  | .init => .lists fun l => match l.program false L.decls L.rtti L.fuel L.now with
    | some p => .tables ((Op.init p).prog L.env)
    | none => .stuck
  | .final => .tables (Op.final.prog L.env)
  | .register e => .lists fun l => match l.step false L.now e with
    | .ok l' => .link l' (.done .registered)
    | _ => .stuck
  -- `std::exchange`
  | .setHandler f => .handler fun g => .install f (.done (.previous g))

/-- One access. -/
def LProg.step (h : Home) : LProg → Option (LProg × Home)
  | .done _ => none
  | .stuck => none
  | .tables (.done (.ok o)) => match o.err? with
    -- default_error_handler.hpp 90-92
    | some e => some (.handler fun f => .done (.reported e f), h)
    | none => some (.done (.op o), h)
  | .tables (.done _) => some (.stuck, h)
  | .tables (.load l k) => some (.tables (k (l.get h.tables)), h)
  | .tables (.inspect k) => some (.tables (k h.tables), h)
  | .tables (.write w k) => some (.tables k, { h with tables := w.apply h.tables })
  | .lists k => some (k h.lists, h)
  | .link l k => some (k, { h with lists := l })
  | .handler k => some (k h.handler, h)
  | .install f k => some (k, { h with handler := f })

/-- The next operation of a thread, and the registry it uses. -/
abbrev LStrategy := List LResult → Option (RegId × LOp)

structure LThread where
  past : List LResult
  cur : Option (RegId × LProg)

structure LSys where
  mem : RegId → Home
  threads : Nat → LThread

def LSys.start (mem : RegId → Home) : LSys := { mem := mem, threads := fun _ => { past := [], cur := none } }

/-- A thread begins an operation, makes an access, or ends an operation. -/
def LThread.step (L : RegId → Setting) (st : LStrategy) (mem : RegId → Home) (t : LThread) : Option ((RegId → Home) × LThread) :=
  match t.cur with
  | none => match st t.past with
    | some (r, op) => some (mem, { t with cur := some (r, op.prog (L r)) })
    | none => none
  | some (_, .done o) => some (mem, { past := t.past ++ [o], cur := none })
  | some (r, p) => (p.step (mem r)).map fun x => (Function.update mem r x.2, { t with cur := some (r, x.1) })

def LSys.step (L : RegId → Setting) (strategy : Nat → LStrategy) (S : LSys) (i : Nat) : Option LSys :=
  ((S.threads i).step L (strategy i) S.mem).map fun x => { mem := x.1, threads := Function.update S.threads i x.2 }

/-- The groups of variables of a registry. -/
inductive LPart where
  | tables
  | lists
  | handler
  deriving DecidableEq, Repr

/-- The group that the next access reads. -/
def LProg.reads : LProg → LPart → Prop
  | .tables (.load _ _), x => x = .tables
  | .tables (.inspect _), x => x = .tables
  | .lists _, x => x = .lists
  | .handler _, x => x = .handler
  | _, _ => False

/-- The group that the next access writes. -/
def LProg.changes : LProg → LPart → Prop
  | .tables (.write _ _), x => x = .tables
  | .link _ _, x => x = .lists
  | .install _ _, x => x = .handler
  | _, _ => False

/-- Two threads are about to access the same group of variables, at least one of them to write. -/
def LSys.Race (S : LSys) : Prop :=
  ∃ i j r p q x, i ≠ j ∧ (S.threads i).cur = some (r, p) ∧ (S.threads j).cur = some (r, q) ∧ p.changes x ∧ (q.changes x ∨ q.reads x)

end OpenMethod
