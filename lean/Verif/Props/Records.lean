import Verif.Proof.Records
import Verif.Props.Independence
import Verif.Props.Dispatch
import Verif.SpecCpp

/-!
# C86: any classes can be registered in such a way that calls are right

Finding 1 is due to the order of the class records. There always is an order that works, and registering everything twice
always works, whatever the orders.
-/

namespace OpenMethod.Props

open Spec Examples

variable {pl : Platform} {p : Program} {gen : Nat} {rep : Report} {img : Image} {m : MethodInfo} {args : List (Res Ptr)} {xs : List Cls}

/-- `q` registers the same inheritance as `p`, is accepted if `p` is, and calls in `q` have the outcome that the documentation
promises for `p`. -/
structure Repairs (p q : Program) : Prop where
  same : SameInheritance p q
  valid : q.Valid
  accepted : ∀ (pl pl' : Platform) (gen gen' : Nat), (∃ r, install pl' false q gen' = .ok r) ↔ ∃ r, install pl false p gen = .ok r
  /-- The conditions of all theorems on calls. -/
  calls : ∀ (gen : Nat) (img : Image) (m : MethodInfo) (args : List (Res Ptr)) (xs : List Cls), AnyCall q gen img m args xs →
    m.vp.length = 1 ∨ Contiguous m.params → CallTo q gen img m args xs
  one : ∀ (pl : Platform) (gen : Nat) (rep : Report) (img : Image) (m : MethodInfo) (args : List (Res Ptr)) (xs : List Cls) (types : List TypeId),
    install pl false q gen = .ok (rep, img) → AnyCall q gen img m args xs → m.vp.length = 1 →
    ∃ r, Expected p m xs r ∧ Does m (callMethod gen img m args types) r
  several : ∀ (pl : Platform) (gen : Nat) (rep : Report) (img : Image) (m : MethodInfo) (args : List (Res Ptr)) (xs : List Cls) (types : List TypeId),
    install pl false q gen = .ok (rep, img) → AnyCall q gen img m args xs → Contiguous m.params → TransitiveAt p m xs →
    ∃ r, Expected p m xs r ∧ Does m (callMethod gen img m args types) r

theorem repairs_of {cs : List ClassInfo} (hv : p.Valid) (h : ∀ cr, cr ∈ cs ↔ cr ∈ p.classes) (ho : ∀ x, OrderSafe { p with classes := cs } x) :
    Repairs p { p with classes := cs } := by
  have hd : Derives { p with classes := cs } = Derives p := funext fun a => funext fun b => propext (sameRecords_derives h a b)
  have hs : SameInheritance p { p with classes := cs } := sameRecords h
  have hq : Program.Valid { p with classes := cs } := sameRecords_valid h hv
  have he : ∀ m xs r, Expected { p with classes := cs } m xs r ↔ Expected p m xs r := by
    intro m xs r
    have : ∀ q : Program, Expected q m xs r ↔ ExpectedBy (Derives q) q m xs r := fun q => by cases r <;> exact Iff.rfl
    rw [this, this p, hd]
    cases r <;> exact Iff.rfl
  have ht : ∀ m xs, TransitiveAt p m xs → TransitiveAt { p with classes := cs } m xs := by
    intro m xs h
    show TransitiveBy (Derives { p with classes := cs }) p m xs
    rw [hd]
    exact h
  have hc : ∀ (gen : Nat) (img : Image) (m : MethodInfo) (args : List (Res Ptr)) (xs : List Cls), AnyCall { p with classes := cs } gen img m args xs →
      m.vp.length = 1 ∨ Contiguous m.params → CallTo { p with classes := cs } gen img m args xs :=
    fun gen img m args xs hc hk => ⟨hc.mem, hc.args, hc.callable, OrderSafe.call (fun x _ => ho x) hc.mem hc.callable.1, hk⟩
  refine ⟨hs, hq, fun pl pl' gen gen' => (C06_errors hv hq hs pl pl' gen gen').2.2, hc, ?_, ?_⟩
  · intro pl gen rep img m args xs types hi ha h1
    obtain ⟨r, h2, h3⟩ := C01_partial hq hi (hc _ _ _ _ _ ha (.inl h1)) h1 types
    exact ⟨r, (he _ _ _).1 h2, h3⟩
  · intro pl gen rep img m args xs types hi ha h1 h2
    obtain ⟨r, h3, h4⟩ := C02_transitive_partial hq hi (hc _ _ _ _ _ ha (.inr h1)) (ht m xs h2) types
    exact ⟨r, (he _ _ _).1 h3, h4⟩

/-- C86: the records of the classes can be put in an order in which calls are right. -/
theorem C86 (hv : p.Valid) : ∃ cs : List ClassInfo, cs.Perm p.classes ∧ Repairs p { p with classes := cs } :=
  ⟨sortedClasses p, sorted_perm p, repairs_of hv (fun _ => (sorted_perm p).mem_iff) fun x => (sorted_basesFirst hv.acyclic x).allFound.orderSafe⟩

/-- Calls are right if all classes are registered once more, in any order. -/
theorem C86_twice (hv : p.Valid) {cs : List ClassInfo} (h : ∀ cr, cr ∈ cs ↔ cr ∈ p.classes) : Repairs p { p with classes := p.classes ++ cs } :=
  repairs_of hv (mem_twice h) fun x => (twice_allFound h x).orderSafe

/-- `augment_classes` (initialize.hpp 535-673) with the loop that collects the bases executed twice. Otherwise identical to
`augmentClasses`. This is not the code of the library. -/
def augmentClassesTwice (pl : Platform) (r : Rtti) (classes : List ClassInfo) : Res Lattice := do
  let s := classes.foldl (addClass r) Lattice.empty
  let s ← classes.foldlM (addBases r) s
  let s ← classes.foldlM (addBases r) s
  let tb := fun c => dedup (s.tb c)
  let tb' := fun c => pl.sort (fun x => (tb x).length) (tb c)
  let db := fun c => (directScan tb' (tb' c)).2
  let dd := directDerived s.order db
  let td := s.order.foldl (calcDerived pl dd (s.order.length + 1)) (fun _ => [])
  return { s with tb := tb', db := db, dd := dd, td := td }

/-- `compile` with that `augment_classes`. -/
def compileTwice (pl : Platform) (n2216 : Bool) (p : Program) : Res Compiled := do
  let L ← augmentClassesTwice pl p.rtti p.classes
  let ms ← augment p.rtti L p.methods
  let s := assignSlots pl L (usedByVp ms)
  let vtbl ← (allWrites pl L s.slots ms).foldlM (writeEntry s.first)
    (fun c => List.replicate (s.size c) { method := 0, vp := 0, group := 0 })
  let ts ← buildMethods pl n2216 L ms
  return { lattice := L, meths := ms, slots := s, tables := ts, vtbl := vtbl, report := accumulate ts }

/-- `install` with that `augment_classes`. -/
def installTwice (pl : Platform) (n2216 : Bool) (p : Program) (gen : Nat) : Res (Report × Image) := do
  let c ← compileTwice pl n2216 p
  let img ← writeGlobal c gen
  return (c.report, img)

theorem augmentClasses_loop (pl : Platform) (r : Rtti) (cs : List ClassInfo) : augmentClassesTwice pl r cs = augmentClasses pl r (cs ++ cs) := by
  unfold augmentClasses augmentClassesTwice
  dsimp only
  rw [addClasses_twice, foldlM_append_res]
  cases cs.foldlM (addBases r) (cs.foldl (addClass r) Lattice.empty) <;> rfl

/-- With the loop executed twice, `initialize` does what it does now if all classes are registered twice. -/
theorem C86_loop (pl : Platform) (n : Bool) (p : Program) (gen : Nat) :
    installTwice pl n p gen = install pl n { p with classes := p.classes ++ p.classes } gen := by
  unfold installTwice install compileTwice compile
  rw [augmentClasses_loop]

/-- C01 holds in full for the corrected library. -/
theorem C86_corrected (hv : p.Valid) (h : installTwice pl false p gen = .ok (rep, img)) (hc : AnyCall p gen img m args xs) (h1 : m.vp.length = 1)
    (types : List TypeId) : ∃ r, Expected p m xs r ∧ Does m (callMethod gen img m args types) r := by
  have hr := C86_twice hv (cs := p.classes) fun _ => Iff.rfl
  rw [C86_loop] at h
  refine hr.one _ _ _ _ _ _ _ types h ⟨hc.mem, hc.args, ?_, fun a ha => (hr.same.registered a).2 (hc.callable.2 a ha)⟩ h1
  have hd : Derives { p with classes := p.classes ++ p.classes } = Derives p := funext fun a => funext fun b => propext (hr.same.derives a b)
  have := hc.callable.1
  unfold Accepts at this ⊢
  rw [hd]
  exact this

/-! ## Examples -/

/-- The method of `C01_refuted`, where 20 is called: all classes registered twice. -/
example : late.Valid ∧ (∃ rep img args, install .std false late 0 = .ok (rep, img) ∧ AnyCall late 0 img f5 args [5] ∧ callMethod 0 img f5 args [] = .ok 20) ∧
    ∃ rep img args, install .std false { late with classes := late.classes ++ late.classes } 0 = .ok (rep, img) ∧
      AnyCall { late with classes := late.classes ++ late.classes } 0 img f5 args [5] ∧ callMethod 0 img f5 args [] = .ok 50 := by
  obtain ⟨rep, img, args, hv, hi, hc, hr⟩ := run_any (p := late) (m := f5) (xs := [5]) (r := .ok 20) (by decide +kernel)
    (by decide +kernel) (by decide +kernel)
  obtain ⟨rep', img', args', _, hi', hc', hr'⟩ := run_any (p := { late with classes := late.classes ++ late.classes }) (m := f5) (xs := [5]) (r := .ok 50)
    (by decide +kernel) (by decide +kernel) (by decide +kernel)
  exact ⟨hv, ⟨rep, img, args, hi, hc, hr⟩, rep', img', args', hi', hc', hr'⟩

/-- The corrected library. -/
example : ∃ rep img args, late.Valid ∧ installTwice .std false late 0 = .ok (rep, img) ∧ AnyCall late 0 img f5 args [5] ∧ callMethod 0 img f5 args [] = .ok 50 := by
  obtain ⟨rep, img, args, hv, hi, hc, hr⟩ := run_any (p := { late with classes := late.classes ++ late.classes }) (m := f5) (xs := [5]) (r := .ok 50)
    (by decide +kernel) (by decide +kernel) (by decide +kernel)
  exact ⟨rep, img, args, late_valid, (C86_loop _ _ _ _).trans hi, ⟨hc.mem, hc.args, Check.callable (p := late) (by decide +kernel) (by decide +kernel)⟩, hr⟩

/-- The records of `late` are not in an order that `Repairs` it: the order matters in `C86`. -/
example : late.Valid ∧ ¬ Repairs late late := by
  refine ⟨late_valid, fun h => ?_⟩
  obtain ⟨rep, img, args, hv, hi, hc, hn⟩ := not_expected (p := late) (m := f5) (xs := [5]) (r := .ok 20) (by decide +kernel)
    (by decide +kernel) (by decide +kernel) (by decide +kernel)
  exact hn (h.one _ _ _ _ _ _ _ [] hi hc (by decide))

end OpenMethod.Props
