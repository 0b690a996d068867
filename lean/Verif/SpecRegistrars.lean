import Verif.Model.Registrars

/-! # Specification: the records of the registrars that are alive -/

namespace OpenMethod.Spec

/-- The registrars that are alive, in the order of their construction, each with the type ids at that time. -/
structure Alive where
  classes : List (Nat × Ids)
  methods : List (Nat × Ids)
  overriders : Nat → List (Nat × Ids)
  /-- storage of overriders that were destroyed, and that is still mapped -/
  stale : Nat → Nat → Prop

def Alive.none : Alive where
  classes := []
  methods := []
  overriders _ := []
  stale _ _ := False

/-- `l` has an item for `x`. -/
def Has (l : List (Nat × Ids)) (x : Nat) : Prop := ∃ t, (x, t) ∈ l

/-- The object is alive. -/
def Alive.Live (L : Alive) : RegObj → Prop
  | .cls c => Has L.classes c
  | .meth m => Has L.methods m
  | .ovr m o => Has (L.overriders m) o

/-- What events do to the set of live objects, and the events that C++ allows: an object is constructed in storage that is
zero-initialised, and destroyed once. The storage of a method stays as long as it has overriders. Nothing
is required on the relative order of methods and overriders. -/
inductive Alive.Step (now : Ids) : Alive → RegEvent → Alive → Prop
  | useClass {L c} : ¬ Has L.classes c → Step now L (.useClass c) { L with classes := L.classes ++ [(c, now)] }
  | dropClass {L c t a b} : L.classes = a ++ (c, t) :: b → Step now L (.dropClass c) { L with classes := a ++ b }
  | declare {L m} : ¬ Has L.methods m → Step now L (.declare m) { L with methods := L.methods ++ [(m, now)] }
  | undeclare {L m t a b} : L.methods = a ++ (m, t) :: b → Step now L (.undeclare m) { L with methods := a ++ b }
  | override {L m o} : ¬ Has (L.overriders m) o → ¬ L.stale m o →
      Step now L (.override m o) { L with overriders := Function.update L.overriders m (L.overriders m ++ [(o, now)]) }
  | twice {L m o} : Has (L.overriders m) o → Step now L (.override m o) L
  | drop {L m o t a b} : L.overriders m = a ++ (o, t) :: b →
      Step now L (.drop m o) { L with
        overriders := Function.update L.overriders m (a ++ b)
        stale := fun m' o' => L.stale m' o' ∨ m' = m ∧ o' = o }
  | unmapOverrider {L m o} : ¬ Has (L.overriders m) o →
      Step now L (.unmapOverrider m o) { L with stale := fun m' o' => L.stale m' o' ∧ ¬ (m' = m ∧ o' = o) }
  | unmapMethod {L m} : ¬ Has L.methods m → L.overriders m = [] → Step now L (.unmapMethod m) L

/-- A history of events. -/
inductive Alive.History : Alive → List (RegEvent × Ids) → Alive → Prop
  | nil {L} : History L [] L
  | cons {L L' L'' e now es} : Alive.Step now L e L' → History L' es L'' → History L ((e, now) :: es) L''

/-- The records of the live objects. `at_ t` are the type ids used for an object constructed when the type ids were `t`. -/
def Alive.program (L : Alive) (D : Decls) (rtti : Rtti) (at_ : Ids → Ids) : Program where
  rtti := rtti
  classes := L.classes.map fun ct => {
    type := (at_ ct.2).cls ct.1
    bases := (at_ ct.2).bases ct.1
    isAbstract := D.isAbstract ct.1
    staticVptr := D.staticVptr ct.1 }
  methods := L.methods.map fun mt => {
    id := mt.1
    params := D.params mt.1
    vp := (at_ mt.2).vp mt.1
    ret := (at_ mt.2).ret mt.1
    overriders := (L.overriders mt.1).map fun ot => {
      vp := (at_ ot.2).ovp mt.1 ot.1
      ret := (at_ ot.2).oret mt.1 ot.1
      pf := D.pf mt.1 ot.1
      next := D.next mt.1 ot.1 } }

end OpenMethod.Spec
