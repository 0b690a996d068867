import Verif.Model.Trace
import Verif.SpecAccept
import Mathlib.Data.List.Dedup

/-! # Specification of traces -/

namespace OpenMethod.Spec

/-- Names that are registered; everything else can be written. -/
def RegisteredName (p : Program) : Tok → Prop
  | .type t => (∃ cr ∈ p.classes, t = cr.type ∨ t ∈ cr.bases) ∨ ∃ m ∈ p.methods, t ∈ m.vp
  | .method i => ∃ m ∈ p.methods, m.id = i
  | .overrider f => ∃ m ∈ p.methods, ∃ o ∈ m.overriders, o.pf = f
  | _ => True

/-- Names of methods and overriders. -/
def isRecord : Tok → Bool
  | .method _ => true
  | .overrider _ => true
  | _ => false

/-- The methods and overriders that are named, in order. -/
def records (w : List Tok) : List Tok := w.filter isRecord

/-- The names of a method and of its overriders. -/
def recordsOf (m : MethodInfo) : List Tok := .method m.id :: m.overriders.map fun o => .overrider o.pf

/-- The trace ends with the record that mentions type `t`, which is not registered. -/
inductive Blames (p : Program) (w : List Tok) (t : TypeId) : Prop
  /-- a base in the record of a class; methods are not reached -/
  | base (cr : ClassInfo) : cr ∈ p.classes → t ∈ cr.bases → .type cr.type ∈ w → .type t ∈ w → records w = [] → Blames p w t
  /-- a parameter of a method, which is the last thing that is named -/
  | param (before after : List MethodInfo) (m : MethodInfo) : p.methods = before ++ m :: after → t ∈ m.vp → .type t ∈ w →
      records w = before.flatMap recordsOf ++ [.method m.id] → Blames p w t
  /-- a parameter or the return type of an overrider, which is the last thing that is named -/
  | overrider (before after : List MethodInfo) (m : MethodInfo) (above below : List OverriderInfo) (o : OverriderInfo) : p.methods = before ++ m :: after →
      m.overriders = above ++ o :: below → t ∈ o.vp ∨ t = o.ret ∧ CovariantReturn p m →
      records w = before.flatMap recordsOf ++ recordsOf { m with overriders := above ++ [o] } → Blames p w t

/-- The number of classes that are registered. -/
def classCount (p : Program) : Nat := (p.classes.map fun cr => p.rtti.ti cr.type).dedup.length

/-- What the search for hash factors writes first. -/
def hashLine (p : Program) : List Tok := [.str "Finding hash factor for ", .num (classCount p), .str " types\n"]

/-- The last lines of the trace: what `initialize` reports. -/
def summary (r : Report) : List Tok :=
  .indent 0 :: (if r.cells = 0 then [] else [.indent 0, .num r.cells, .str " dispatch table cells, "]) ++
    [.num r.notImplemented, .str " not implemented, ", .num r.ambiguous, .str " ambiguous\n", .indent 0, .str "Finished\n"]

/-- The trace names all the classes, methods and overriders. -/
structure NamesAll (p : Program) (w : List Tok) : Prop where
  classes : ∀ cr ∈ p.classes, .type cr.type ∈ w ∧ ∀ t ∈ cr.bases, .type t ∈ w
  methods : ∀ m ∈ p.methods, .method m.id ∈ w ∧ ∀ o ∈ m.overriders, .overrider o.pf ∈ w

end OpenMethod.Spec
