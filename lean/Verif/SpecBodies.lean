import Verif.SpecSource
import Verif.Model.Bodies

/-!
# Specification of the execution of programs

A semantics of programs with open methods, on their declarations: methods choose overriders by the classes of the arguments, as documented. It does not mention type ids, records, thunks or
the registry.
-/

namespace OpenMethod

open Spec

namespace Spec

section

variable (D : Cls → Cls → Prop) (css : List (List Cls))

/-- Overrider number `j` is more specific than overrider number `i`. -/
def MoreIn (j i : Nat) : Prop := ∃ as bs, css[j]? = some as ∧ css[i]? = some bs ∧ MoreSpecificIn D as bs

/-- The next most specialised overrider after overrider number `i`, among those that accept the arguments. -/
def NextIn (xs : List Cls) (i : Nat) : Outcome → Prop := Best (fun j => ApplicableIn D css xs j ∧ MoreIn D css i j) (MoreIn D css)

end

end Spec

namespace Source

variable (S : Source)

/-- The documented outcome of `next` in overrider number `i`. -/
def Next (M : MethodDecl) (xs : List Cls) (i : Nat) : Outcome → Prop := NextIn S.cpp.hier.Inherits (M.overriders.map fun o => o.classes M) xs i

/-- Of two overriders that accept the same arguments, if one is more specific, the other accepts its parameter classes. -/
def Nested (M : MethodDecl) : Prop :=
  ∀ ys, (∀ y ∈ ys, Named S.uses y) → List.Forall₂ (fun q a => S.cpp.hier.Inherits a q) M.classes ys →
    ∀ o ∈ M.overriders, ∀ o' ∈ M.overriders, List.Forall₂ (fun q a => S.cpp.hier.Inherits a q) (o.classes M) ys →
      List.Forall₂ (fun q a => S.cpp.hier.Inherits a q) (o'.classes M) ys → MoreSpecificIn S.cpp.hier.Inherits (o.classes M) (o'.classes M) →
      List.Forall₂ (fun q a => S.cpp.hier.Inherits a q) (o'.classes M) (o.classes M)

/-- The classes of the objects passed as virtual arguments. -/
def classesIn : List Passed → List Cls
  | [] => []
  | .virt ⟨_, _, some r⟩ :: as => S.rtti.ti r.obj.type :: classesIn as
  | _ :: as => classesIn as

/-- The arguments `as'` designate the same objects as `as`, as objects of classes `ds`. -/
inductive Delivered : List Cls → List Passed → List Passed → Prop
  | nil : Delivered [] [] []
  | other {ds as as'} (v : Nat) : Delivered ds as as' → Delivered ds (.other v :: as) (.other v :: as')
  | virt {d ds as as' pass vp r r'} : r'.obj = r.obj → S.cpp.hier.Subobject (S.rtti.ti r.obj.type) r'.path → Hier.OfClass r'.path d → Delivered ds as as' →
      Delivered (d :: ds) (.virt ⟨pass, vp, some r⟩ :: as) (.virt ⟨pass, vp, some r'⟩ :: as')

/-- The caller of a method that returns a `t` receives `r'` when an overrider that returns a `u` returns `r`. -/
inductive Receives : Option CT → Option CT → Result → Result → Prop
  | same {t r} : Receives t t r r
  | other {t u v} : Receives (some t) (some u) (some (.other v)) (some (.other v))
  | null {t u c d pass vp} : t.Covariant u c d → Receives (some t) (some u) (some (.virt ⟨pass, vp, none⟩)) (some (.virt ⟨pass, vp, none⟩))
  | virt {t u c d pass vp r r'} : t.Covariant u c d → r'.obj = r.obj → S.cpp.hier.Subobject (S.rtti.ti r.obj.type) r'.path → Hier.OfClass r'.path c →
      Receives (some t) (some u) (some (.virt ⟨pass, vp, some r⟩)) (some (.virt ⟨pass, vp, some r'⟩))

/-- What runs: a function, which may be overrider number `i` of method number `k`, entered with arguments `as`; or the outcome of a call to method number `k`. -/
inductive Task (σ : Type) where
  | body (f : Option (Nat × Nat × List Passed)) (b : Body σ)
  | enter (k : Nat) (args : List Passed) (r : Outcome)

/-- Why a call fails. -/
inductive Fails : Outcome → Thrown → Prop
  | noOverrider : Fails .noOverrider .noOverrider
  | ambiguous : Fails .ambiguous .ambiguous

/-- How a task ends, if it does. -/
inductive Runs {σ : Type} (throws : Bool) (code : Nat → List Passed → Body σ) : Task σ → σ → Ended σ → Prop
  | ret {f r s} : Runs throws code (.body f (.ret r)) s (.done s (.value r))
  | throw {f x s} : Runs throws code (.body f (.throw x)) s (.done s (.threw x))
  | get {f k s e} : Runs throws code (.body f (k s)) s e → Runs throws code (.body f (.get k)) s e
  | set {f x k s e} : Runs throws code (.body f k) x e → Runs throws code (.body f (.set x k)) s e
  | hasNext {n i as M k s e} {h : Bool} : S.methods[n]? = some M → (h = true ↔ ∃ j, S.Next M (S.classesIn as) i (.run j)) →
      Runs throws code (.body (some (n, i, as)) (k h)) s e → Runs throws code (.body (some (n, i, as)) (.hasNext k)) s e
  | next {n i as M args k s r s' v e} : S.methods[n]? = some M → S.Next M (S.classesIn args) i r → Runs throws code (.enter n args r) s (.done s' v) →
      Runs throws code (.body (some (n, i, as)) (k v)) s' e → Runs throws code (.body (some (n, i, as)) (.next args k)) s e
  | nextAborted {n i as M args k s r x} : S.methods[n]? = some M → S.Next M (S.classesIn args) i r → Runs throws code (.enter n args r) s (.aborted x) →
      Runs throws code (.body (some (n, i, as)) (.next args k)) s (.aborted x)
  | call {f n M args k s r s' v e} : S.methods[n]? = some M → S.Expected M (S.classesIn args) r → Runs throws code (.enter n args r) s (.done s' v) →
      Runs throws code (.body f (k v)) s' e → Runs throws code (.body f (.call n args k)) s e
  | callAborted {f n M args k s r x} : S.methods[n]? = some M → S.Expected M (S.classesIn args) r → Runs throws code (.enter n args r) s (.aborted x) →
      Runs throws code (.body f (.call n args k)) s (.aborted x)
  | returns {n i M o args as s s' r r'} : S.methods[n]? = some M → M.overriders[i]? = some o → S.Delivered (o.classes M) args as →
      Runs throws code (.body (some (n, i, as)) (code o.pf as)) s (.done s' (.value r)) → S.Receives M.ret o.ret r r' →
      Runs throws code (.enter n args (.run i)) s (.done s' (.value r'))
  | throws {n i M o args as s s' x} : S.methods[n]? = some M → M.overriders[i]? = some o → S.Delivered (o.classes M) args as →
      Runs throws code (.body (some (n, i, as)) (code o.pf as)) s (.done s' (.threw x)) → Runs throws code (.enter n args (.run i)) s (.done s' (.threw x))
  | aborts {n i M o args as s x} : S.methods[n]? = some M → M.overriders[i]? = some o → S.Delivered (o.classes M) args as →
      Runs throws code (.body (some (n, i, as)) (code o.pf as)) s (.aborted x) → Runs throws code (.enter n args (.run i)) s (.aborted x)
  | errorThrows {n args r x s} : Fails r x → throws = true → Runs throws code (.enter n args r) s (.done s (.threw x))
  | errorAborts {n args r x s} : Fails r x → throws = false → Runs throws code (.enter n args r) s (.aborted x)

/-! ## Programs that respect the rules -/

/-- A result for the return type `u`: a pointer or reference to an object of its class, which has no repeated bases; a null pointer; or something else. -/
inductive Fits : Option CT → Result → Prop
  | void : Fits none none
  | other {u v} : Fits (some u) (some (.other v))
  | null {u d pass vp} : u.class? = some d → S.cpp.hier.Defined d → Fits (some u) (some (.virt ⟨pass, vp, none⟩))
  | virt {u d pass vp r} : u.class? = some d → S.cpp.hier.Subobject (S.rtti.ti r.obj.type) r.path → Hier.OfClass r.path d → S.cpp.hier.NoRepeat (S.rtti.ti r.obj.type) →
      Fits (some u) (some (.virt ⟨pass, vp, some r⟩))

/-- What the author of a program can rely on: an invariant of the state, and for each method what its arguments and its result satisfy. -/
structure Contract (σ : Type) where
  inv : σ → Prop
  pre : Nat → List Passed → Prop
  post : Nat → Result → Prop

section

variable {σ : Type} (p : Program) (s : RegState) (C : MethodDecl → List Cls → Prop) (N : MethodDecl → Prop) (K : Contract σ)

/-- The arguments have the types of the parameters of a function: references or pointers to objects of the classes `bs`, with valid v-table pointers if they are `virtual_ptr`s, and without repeated
bases. -/
def Typed (bs : List Cls) (ks : List Bool) (args : List Passed) : Prop :=
  PassedFor S.cpp.hier p s bs ks args (S.classesIn args) ∧ ∀ x ∈ S.classesIn args, S.cpp.hier.NoRepeat x

/-- A function respects the contract: it calls methods with arguments of the right types, as does `next` in an overrider, with arguments that this overrider accepts. Calls satisfy `C`; methods whose overriders use
`next` satisfy `N`. -/
inductive BodyOk : Option (Nat × Nat) → (Result → Prop) → Body σ → Prop
  | ret {f P r} : P r → BodyOk f P (.ret r)
  | throw {f P x} : BodyOk f P (.throw x)
  | get {f P k} : (∀ x, K.inv x → BodyOk f P (k x)) → BodyOk f P (.get k)
  | set {f P x k} : K.inv x → BodyOk f P k → BodyOk f P (.set x k)
  | hasNext {n i M P k} : S.methods[n]? = some M → N M → (∀ h, BodyOk (some (n, i)) P (k h)) → BodyOk (some (n, i)) P (.hasNext k)
  | next {n i M o P args k} : S.methods[n]? = some M → M.overriders[i]? = some o → N M → S.Typed p s M.classes M.kinds args →
      List.Forall₂ (fun q a => S.cpp.hier.Inherits a q) (o.classes M) (S.classesIn args) → K.pre n args → (∀ v, K.post n v → BodyOk (some (n, i)) P (k (.value v))) →
      (∀ x, BodyOk (some (n, i)) P (k (.threw x))) → BodyOk (some (n, i)) P (.next args k)
  | call {f n M P args k} : S.methods[n]? = some M → S.Typed p s M.classes M.kinds args → C M (S.classesIn args) → K.pre n args → (∀ v, K.post n v → BodyOk f P (k (.value v))) →
      (∀ x, BodyOk f P (k (.threw x))) → BodyOk f P (.call n args k)

/-- All overriders respect the contract. -/
def CodeOk (code : Nat → List Passed → Body σ) : Prop :=
  ∀ n M i o args as, S.methods[n]? = some M → M.overriders[i]? = some o → K.pre n args → S.Delivered (o.classes M) args as → S.Typed p s (o.classes M) M.kinds as →
    BodyOk S p s C N K (some (n, i)) (fun r => S.Fits o.ret r ∧ ∀ r', S.Receives M.ret o.ret r r' → K.post n r') (code o.pf as)

end

end Source

end OpenMethod
