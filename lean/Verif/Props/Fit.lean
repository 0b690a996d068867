import Verif.SpecFit
import Verif.Proof.Bodies
import Verif.Props.Next
import Verif.Props.Corrected

/-! # C90: a `next` per overrider

`next` is a variable per overrider (core.hpp 2222-2233), so all calls that run the overrider share it. The library stores the right function whenever there is one; in some programs
there is none. -/

namespace OpenMethod.Props

open Spec Examples Machine

variable {n : Bool} {pl : Platform} {p : Program} {gen : Nat} {rep : Report} {img : Image} {m : MethodInfo}
  {args : List (Res Ptr)} {xs : List Cls} {types : List TypeId} {o : OverriderInfo} {i : Nat}

/-- A function does one thing. -/
theorem does_unique (hD : p.Distinct) (hm : m ∈ p.methods) {res : Res Nat} {r s : Outcome} (hr : Does m res r) (hs : Does m res s) : r = s := by
  cases r <;> cases s <;> simp only [Does] at hr hs
  · obtain ⟨a, ha, rfl⟩ := hr
    obtain ⟨b, hb, he⟩ := hs
    obtain ⟨_, rfl, _⟩ := hD.index hm hm ha hb (by simpa using he)
    rfl
  all_goals first
    | rfl
    | (obtain ⟨_, _, h1⟩ := hr; obtain ⟨_, _, h2⟩ := hs; rw [h1] at h2; simp at h2)

/-- What the library stores in `next` is right for some arguments with which the overrider is called. -/
theorem next_somewhere (hv : p.Valid) (hD : p.Distinct) (h : install pl false p gen = .ok (rep, img)) (hm : m ∈ p.methods)
    (ht : ∀ ys, Callable p m ys → TransitiveAt p m ys) (ho : m.overriders[i]? = some o) (hc : Callable p m xs) (hE : Expected p m xs (.run i)) :
    ∃ ys f r, Callable p m ys ∧ Expected p m ys (.run i) ∧ nextAt img o.next = some f ∧ Without p m ys i r ∧ ∀ types, Does m (enter f types) r := by
  rcases next_cases hv hD h hm ho with ⟨_, h2⟩ | ⟨ys, f, L, hy, hs, hn, hf⟩
  · refine absurd ?_ (h2 xs hc)
    have hmem := mem_survIdx (ht xs hc)
    have hnd := (survIdx_surv (p := p) m (appIdx p m xs)).sub.nodup (appIdx_nodup p m xs)
    have h1 := (hmem i).2 hE.1
    have h2 : ∀ k ∈ survIdx p m (appIdx p m xs), k = i := fun k hk => hE.2 k ((hmem k).1 hk)
    generalize survIdx p m (appIdx p m xs) = is at h1 h2 hnd
    match is with
    | [] => simp at h1
    | [a] => rw [h2 a (by simp)]
    | a :: b :: l => rw [h2 a (by simp), h2 b (by simp)] at hnd; simp at hnd
  · have htr := ht ys hy
    obtain ⟨r, h1, h2, _⟩ := survIdx_best ((appIdx_nodup p m ys).filter _)
      (fun x hx y hy z hz => htr x y z (mem_appIdx.1 (List.mem_filter.1 hx).1) (mem_appIdx.1 (List.mem_filter.1 hy).1) (mem_appIdx.1 (List.mem_filter.1 hz).1))
      (fun i hi => by obtain ⟨o, ho, _⟩ := mem_appIdx.1 (List.mem_filter.1 hi).1; exact ⟨o, ho⟩) hf
    refine ⟨ys, f, r, hy, survIdx_expected htr hs, hn, (Best.congr (fun k => ?_) r).1 h1, h2⟩
    rw [List.mem_filter, mem_appIdx]
    simp

/-- C90: if some function is right as `next` of an overrider, for all arguments with which it is called, then the function stored by the library is. -/
theorem C90 (hv : p.Valid) (hD : p.Distinct) (h : install pl false p gen = .ok (rep, img)) (hm : m ∈ p.methods)
    (ht : ∀ ys, Callable p m ys → TransitiveAt p m ys) (ho : m.overriders[i]? = some o) (hc : Callable p m xs) (hE : Expected p m xs (.run i))
    (hg : ∃ g, FitsNext p m i g) : ∃ f, nextAt img o.next = some f ∧ FitsNext p m i f := by
  obtain ⟨g, hg⟩ := hg
  obtain ⟨ys, f, r, hy, hEy, hn, hr, hf⟩ := next_somewhere hv hD h hm ht ho hc hE
  refine ⟨f, hn, fun zs hz hEz => ?_⟩
  obtain ⟨r1, hr1, hg1⟩ := hg ys hy hEy
  obtain ⟨r2, hr2, hg2⟩ := hg zs hz hEz
  obtain rfl := best_unique hr hr1
  obtain rfl := does_unique hD hm (hg1 []) (hg2 [])
  exact ⟨r, hr2, hf⟩

/-- The function stored by the library is right exactly if all calls that run the overrider would do the same thing without it. -/
theorem C90_exact (hv : p.Valid) (hD : p.Distinct) (h : install pl false p gen = .ok (rep, img)) (hm : m ∈ p.methods)
    (ht : ∀ ys, Callable p m ys → TransitiveAt p m ys) (ho : m.overriders[i]? = some o) (hc : Callable p m xs) (hE : Expected p m xs (.run i)) :
    (∃ f, nextAt img o.next = some f ∧ FitsNext p m i f) ↔ UniformAt p m i := by
  constructor
  · rintro ⟨f, _, hf⟩ ys zs r hy hz hEy hEz hr
    obtain ⟨r1, hr1, hf1⟩ := hf ys hy hEy
    obtain ⟨r2, hr2, hf2⟩ := hf zs hz hEz
    obtain rfl := best_unique hr hr1
    obtain rfl := does_unique hD hm (hf1 []) (hf2 [])
    exact hr2
  · intro hu
    obtain ⟨ys, f, r, hy, hEy, hn, hr, hf⟩ := next_somewhere hv hD h hm ht ho hc hE
    exact ⟨f, hn, fun zs hz hEz => ⟨r, hu ys zs r hy hz hEy hEz hr, hf⟩⟩

/-- In a call that runs an overrider for which some `next` is right, `next` does what the documentation says: it is the next most specialised overrider, and what would be called without
the overrider. -/
theorem C90_call (hv : p.Valid) (hD : p.Distinct) (h : install pl false p gen = .ok (rep, img)) (hc : CallTo p gen img m args xs)
    (ht : ∀ ys, Callable p m ys → TransitiveAt p m ys) (ho : m.overriders[i]? = some o) (hrun : callMethod gen img m args types = .ok o.pf)
    (hu : UniformAt p m i) : ∃ f r, nextAt img o.next = some f ∧ Without p m xs i r ∧ NextExpected p m xs i r ∧ ∀ types, Does m (enter f types) r := by
  rw [call_ref hv h hc] at hrun
  obtain ⟨j, o1, ho1, hpf, hA, hs⟩ := refCall_ok hrun
  obtain ⟨_, rfl, rfl⟩ := hD.index hc.mem hc.mem ho1 ho hpf
  have hE := survIdx_expected (ht xs hc.callable) hs
  obtain ⟨f, hn, hf⟩ := (C90_exact hv hD h hc.mem ht ho hc.callable hE).2 hu
  obtain ⟨r, hr, hd⟩ := hf xs hc.callable hE
  exact ⟨f, r, hn, hr, (nextExpected_removed (ht xs hc.callable) hE r).2 hr, hd⟩

/-- The condition of C13-C15 is enough. -/
theorem covered_uniform (hp : Covered p m) : UniformAt p m i := by
  intro xs ys r hx hy hEx hEy hr
  obtain ⟨⟨o, ho, hAx⟩, _⟩ := hEx.1
  obtain ⟨⟨o1, ho1, hAy⟩, _⟩ := hEy.1
  obtain rfl := Option.some.inj (ho.symm.trans ho1)
  refine (Best.congr (fun j => and_congr_left fun _ => ?_) r).1 hr
  constructor
  · rintro ⟨o', ho', hA⟩
    exact ⟨o', ho', Accepts.trans' ((hp xs hx).2 i o ho hEx o' (List.mem_of_getElem? ho') hA) hAy⟩
  · rintro ⟨o', ho', hA⟩
    exact ⟨o', ho', Accepts.trans' ((hp ys hy).2 i o ho hEy o' (List.mem_of_getElem? ho') hA) hAx⟩

/-! ## With the corrections of C89

With the corrected choice of overriders, more specific need not be transitive. -/

section

variable {f : Fixes}

theorem looped_derives : Derives (looped f p) = Derives p := funext fun a => funext fun b => propext (sameRecords_derives (looped_mem f p) a b)

theorem callable_unlooped (h : Callable (looped f p) m xs) : Callable p m xs := by
  refine ⟨?_, fun a ha => ((sameRecords (looped_mem f p)).registered a).1 (h.2 a ha)⟩
  have := h.1
  unfold Accepts at this ⊢
  rw [looped_derives] at this
  exact this

theorem applicableAt_looped : ApplicableAt (looped f p) m xs = ApplicableAt p m xs := by
  funext i
  unfold ApplicableAt Applicable Accepts
  rw [looped_derives]
  rfl

theorem dominates_looped : Dominates (looped f p) m = Dominates p m := by
  funext i j
  unfold Dominates MoreSpecific ProperlyDerives
  rw [looped_derives]
  rfl

/-- As `next_somewhere`. -/
theorem fixed_somewhere (hv : p.Valid) (hD : p.Distinct) (hs : f.select = true) (h : installWith f pl p gen = .ok (rep, img)) (hm : m ∈ p.methods)
    (ho : m.overriders[i]? = some o) (hc : Callable p m xs) (hE : Expected p m xs (.run i)) :
    ∃ ys g r, Callable p m ys ∧ Expected p m ys (.run i) ∧ nextAt img o.next = some g ∧ Without p m ys i r ∧ ∀ types, Does m (enter g types) r := by
  have hq : (looped f p).Valid := looped_valid hv
  obtain ⟨c, bases, C, I, _, ht, _⟩ := installWith_ok hv hs h
  have hmem : m ∈ (looped f p).methods := hm
  have hM := C.methOk m hmem
  obtain ⟨k, hk⟩ := List.getElem?_of_mem hmem
  have htk : c.tables[k]? = some (buildMethodFixed pl c.lattice (toMeth (looped f p).rtti c.lattice m)) := by
    rw [ht, List.getElem?_map, C.meths, List.getElem?_map, hk]
    rfl
  have hmore : ∀ a b, moreAt c.lattice (toMeth (looped f p).rtti c.lattice m).overriders a b = true ↔ Dominates p m a b := by
    intro a b
    rw [moreAt_iff C.lat hq.acyclic hM, dominates_looped]
  have hlen : ∀ ys, ArgsOk c.lattice (toMeth (looped f p).rtti c.lattice m) ys → ys.length = m.vp.length := by
    intro ys h
    have := h.length_eq
    simpa [toMeth] using this.symm
  have happ : ∀ ys, ArgsOk c.lattice (toMeth (looped f p).rtti c.lattice m) ys →
      setBits (argMask c.lattice (toMeth (looped f p).rtti c.lattice m).overriders ys) = appIdx (looped f p) m ys := by
    intro ys h
    rw [argMask_eq C.lat hM (hlen ys h)]; rfl
  have hexp : ∀ ys, ArgsOk c.lattice (toMeth (looped f p).rtti c.lattice m) ys → Expected p m ys (cellFixed
      (moreAt c.lattice (toMeth (looped f p).rtti c.lattice m).overriders) (setBits (argMask c.lattice (toMeth (looped f p).rtti c.lattice m).overriders ys))).outcome := by
    intro ys h
    have := cellFixed_expected hq.acyclic C.lat hM (hlen ys h)
    exact (expected_looped _).1 this
  have hD' : (looped f p).Distinct := ⟨hD.pf, hD.next⟩
  rw [nextAt_eq C I hD' hk htk ho]
  rcases fixed_next pl c.lattice (toMeth (looped f p).rtti c.lattice m) i with ⟨_, h2⟩ | ⟨ys, ha, hcell, hn⟩
  · have ha := callable_argsOk C.lat hM (callable_looped (f := f) hc)
    have he := (hexp xs ha).unique hE
    refine absurd ?_ (h2 xs ha)
    generalize cellFixed _ _ = cell at he
    cases cell <;> simp_all [Cell.outcome]
  · have hEy := hexp ys ha
    rw [hcell] at hEy
    rw [happ ys ha] at hn
    have hb := cellFixed_best (more := moreAt c.lattice (toMeth (looped f p).rtti c.lattice m).overriders) ((appIdx_nodup (looped f p) m ys).filter (· ≠ i))
    have hw : ∀ r, Best (· ∈ (appIdx (looped f p) m ys).filter (· ≠ i))
        (fun a b => moreAt c.lattice (toMeth (looped f p).rtti c.lattice m).overriders a b = true) r → Without p m ys i r := by
      intro r h
      rw [show (fun a b => moreAt c.lattice (toMeth (looped f p).rtti c.lattice m).overriders a b = true) = Dominates p m from
        funext fun a => funext fun b => propext (hmore a b)] at h
      refine (Best.congr (fun k => ?_) r).1 h
      rw [List.mem_filter, mem_appIdx, applicableAt_looped]
      simp
    have hwr := hw _ hb
    refine ⟨ys, ?_⟩
    rw [hn, Option.bind_some]
    generalize hcl : cellFixed _ _ = cell at hwr
    cases cell with
    | notImplemented => exact ⟨.notImplemented m.id, _, callable_unlooped (callable_of_argsOk C.lat hM ha), hEy, rfl, hwr, fun _ => ⟨_, _, rfl⟩⟩
    | ambiguous => exact ⟨.ambiguous m.id, _, callable_unlooped (callable_of_argsOk C.lat hM ha), hEy, rfl, hwr, fun _ => ⟨_, _, rfl⟩⟩
    | ovr k =>
      obtain ⟨⟨b, hb, _⟩, _⟩ := hwr.1.1
      refine ⟨.user b.pf, _, callable_unlooped (callable_of_argsOk C.lat hM ha), hEy, ?_, hwr, fun _ => ⟨b, hb, rfl⟩⟩
      simp only [pfOf, toMeth_overrider hb, Option.map_some]

/-- C90 for the corrected choice of overriders, without conditions: the stored `next` is right if and only if any function is, if and only if all calls that run the overrider would do the
same thing without it. -/
theorem C90_corrected (hv : p.Valid) (hD : p.Distinct) (hs : f.select = true) (h : installWith f pl p gen = .ok (rep, img)) (hm : m ∈ p.methods)
    (ho : m.overriders[i]? = some o) (hc : Callable p m xs) (hE : Expected p m xs (.run i)) :
    ((∃ g, FitsNext p m i g) → ∃ g, nextAt img o.next = some g ∧ FitsNext p m i g) ∧
    ((∃ g, nextAt img o.next = some g ∧ FitsNext p m i g) ↔ UniformAt p m i) := by
  obtain ⟨ys, g, r, hy, hEy, hn, hr, hg⟩ := fixed_somewhere hv hD hs h hm ho hc hE
  have h1 : (∃ g, FitsNext p m i g) → UniformAt p m i := by
    rintro ⟨f, hf⟩ ys zs r hy hz hEy hEz hr
    obtain ⟨r1, hr1, hf1⟩ := hf ys hy hEy
    obtain ⟨r2, hr2, hf2⟩ := hf zs hz hEz
    obtain rfl := best_unique hr hr1
    obtain rfl := does_unique hD hm (hf1 []) (hf2 [])
    exact hr2
  have h2 : UniformAt p m i → ∃ g, nextAt img o.next = some g ∧ FitsNext p m i g :=
    fun hu => ⟨g, hn, fun zs hz hEz => ⟨r, hu ys zs r hy hz hEy hEz hr, hg⟩⟩
  exact ⟨fun hg => h2 (h1 hg), fun ⟨g, _, hg⟩ => h1 ⟨g, hg⟩, h2⟩

/-- With all corrections, in any call that runs an overrider for which some `next` is right, `next` does what the call would do without the overrider. -/
theorem C90_corrected_call (hv : p.Valid) (hD : p.Distinct) (h : installWith ⟨true, true, true⟩ pl p gen = .ok (rep, img)) (hc : AnyCall p gen img m args xs)
    (ho : m.overriders[i]? = some o) (hrun : callWith ⟨true, true, true⟩ gen img m args types = .ok o.pf) (hu : UniformAt p m i) :
    ∃ g r, nextAt img o.next = some g ∧ Without p m xs i r ∧ ∀ types, Does m (enter g types) r := by
  obtain ⟨r, hE, hd⟩ := C89_right _ _ _ _ _ _ _ _ types hv h hc
  obtain rfl := does_unique hD hc.mem (r := r) (s := .run i) hd ⟨o, ho, hrun⟩
  obtain ⟨g, hn, hg⟩ := (C90_corrected hv hD rfl h hc.mem ho hc.callable hE).2.2 hu
  obtain ⟨r, hr, hd⟩ := hg xs hc.callable hE
  exact ⟨g, r, hn, hr, hd⟩

end

/-! ## Programs -/

theorem transitive_of (hr : Check.ranked p = true) (h : ((List.range m.overriders.length).all fun i => (List.range m.overriders.length).all fun j =>
    (List.range m.overriders.length).all fun k => !Check.dominatesB p m i j || !Check.dominatesB p m j k || Check.dominatesB p m i k) = true) (ys : List Cls) :
    TransitiveAt p m ys := by
  rintro i j k ⟨a, ha, _⟩ ⟨b, hb, _⟩ ⟨c, hc, _⟩ d1 d2
  simp only [List.all_eq_true, List.mem_range, Bool.or_eq_true, Bool.not_eq_true'] at h
  rw [← Check.dominates hr] at d1 d2 ⊢
  rcases h i (List.getElem?_eq_some_iff.1 ha).1 j (List.getElem?_eq_some_iff.1 hb).1 k (List.getElem?_eq_some_iff.1 hc).1 with (h | h) | h
  · rw [d1] at h; cases h
  · rw [d2] at h; cases h
  · exact h

/-- The documented choice among the overriders that accept the arguments, except `i`, computed. -/
def withoutB (p : Program) (m : MethodInfo) (xs : List Cls) (i : Nat) : Outcome :=
  let as := (Check.apps p m xs).filter (· ≠ i)
  match as.filter fun k => as.all fun j => !Check.dominatesB p m j k with
  | [k] => .run k
  | _ => if as = [] then .noOverrider else .ambiguous

theorem withoutB_spec (hr : Check.ranked p = true) (xs : List Cls) (i : Nat) : Without p m xs i (withoutB p m xs i) := by
  unfold Without withoutB
  have hmem : ∀ j, ApplicableAt p m xs j ∧ j ≠ i ↔ j ∈ (Check.apps p m xs).filter (· ≠ i) := by
    intro j
    rw [List.mem_filter, Check.mem_apps hr]
    simp
  have hnd : ((Check.apps p m xs).filter (· ≠ i)).Nodup := List.Nodup.filter _ (List.Nodup.filter _ List.nodup_range)
  refine (Best.congr hmem _).2 ?_
  generalize (Check.apps p m xs).filter (· ≠ i) = as at hnd
  dsimp only
  have hb : ∀ k, k ∈ as.filter (fun k => as.all fun j => !Check.dominatesB p m j k) ↔ k ∈ as ∧ ∀ j, j ∈ as → ¬ Dominates p m j k := by
    intro k
    rw [List.mem_filter, List.all_eq_true]
    simp only [← Check.dominates hr, Bool.not_eq_true', Bool.not_eq_true]
  have hnb : (as.filter fun k => as.all fun j => !Check.dominatesB p m j k).Nodup := hnd.filter _
  generalize (as.filter fun k => as.all fun j => !Check.dominatesB p m j k) = bs at hb hnb
  have other : (∀ k, bs ≠ [k]) → Best (· ∈ as) (Dominates p m) (if as = [] then .noOverrider else .ambiguous) := by
    intro hne
    split
    · rename_i h
      intro i hi
      rw [h] at hi
      simp at hi
    · rename_i h
      refine ⟨List.exists_mem_of_ne_nil _ h, ?_⟩
      rintro ⟨k, hk, hu⟩
      have h1 := (hb k).2 hk
      have h2 : ∀ j ∈ bs, j = k := fun j hj => hu j ((hb j).1 hj).1 ((hb j).1 hj).2
      match bs with
      | [] => simp at h1
      | [a] => exact hne a rfl
      | a :: b :: l => rw [h2 a (by simp), h2 b (by simp)] at hnb; simp at hnb
  match bs with
  | [] => exact other (by simp)
  | [k] => exact ⟨(hb k).1 (by simp), fun j hj hj' => by simpa using (hb j).2 ⟨hj, hj'⟩⟩
  | a :: b :: l => exact other (by simp)

/-- In `nextProg`, no function is right as `next` of the first overrider: without it, the call with classes 2 and 3 has no overrider, and the call with classes 2 and 5 runs the second
overrider. The only overrider that a `next` can lead to expects an object of class 4. -/
theorem C90_impossible : nextProg.Valid ∧ nextProg.Distinct ∧ nextPair ∈ nextProg.methods ∧ (∀ ys, TransitiveAt nextProg nextPair ys) ∧
    (∃ xs, Callable nextProg nextPair xs ∧ Expected nextProg nextPair xs (.run 0)) ∧ ¬ ∃ g, FitsNext nextProg nextPair 0 g := by
  have hr : Check.ranked nextProg = true := by decide +kernel
  have hE : ∀ ys, Check.expected nextProg nextPair ys = .run 0 → Expected nextProg nextPair ys (.run 0) := fun ys h => h ▸ Check.expected_spec hr _ _
  have c1 : Callable nextProg nextPair [2, 3] := Check.callable hr (by decide +kernel)
  have c2 : Callable nextProg nextPair [2, 5] := Check.callable hr (by decide +kernel)
  have e1 := hE [2, 3] (by decide +kernel)
  have e2 := hE [2, 5] (by decide +kernel)
  refine ⟨Check.valid (by decide +kernel), nextProg_distinct, by decide, transitive_of hr (by decide +kernel), ⟨_, c1, e1⟩, ?_⟩
  rintro ⟨g, hg⟩
  obtain ⟨r1, h1, d1⟩ := hg _ c1 e1
  obtain ⟨r2, h2, d2⟩ := hg _ c2 e2
  obtain rfl := best_unique (withoutB_spec hr _ _) h1
  obtain rfl := best_unique (withoutB_spec hr _ _) h2
  have := does_unique nextProg_distinct (by decide) (d1 []) (d2 [])
  revert this
  decide +kernel

theorem callable_pair (hvp : ∃ a b, m.vp = [a, b]) {ys : List Cls} (h : Callable p m ys) :
    ys ∈ (p.classes.map fun c => p.rtti.ti c.type).flatMap fun a => (p.classes.map fun c => p.rtti.ti c.type).map fun b => [a, b] := by
  obtain ⟨a, b, hab⟩ := hvp
  have hlen : ys.length = 2 := by
    have := h.1.length_eq
    simp only [classesOf, hab, List.map_cons, List.map_nil, List.length_cons, List.length_nil] at this
    omega
  have hcl : ∀ y ∈ ys, y ∈ p.classes.map fun c => p.rtti.ti c.type := by
    intro y hy
    have := Check.registered.2 (h.2 y hy)
    simp only [Check.registeredB, List.any_eq_true, decide_eq_true_eq] at this
    obtain ⟨cr, hcr, rfl⟩ := this
    exact List.mem_map.2 ⟨cr, hcr, rfl⟩
  match ys, hlen, hcl with
  | [x, y], _, hcl => exact List.mem_flatMap.2 ⟨x, hcl x (by simp), List.mem_map.2 ⟨y, hcl y (by simp), rfl⟩⟩

def uniformMeth : MethodInfo := meth 0 [true, true] [1, 1] [ov [2, 2] 1, ov [2, 1] 2, ov [1, 2] 3, ov [3, 1] 4]

/-- Class 4 derives from 2 and 3. -/
def uniformProg : Program := prog [cls 1 [], cls 2 [1], cls 3 [1], cls 4 [1, 2, 3]] [uniformMeth]

theorem uniform_of (hr : Check.ranked p = true) (hvp : ∃ a b, m.vp = [a, b]) (i : Nat) (o : Outcome)
    (h : (((p.classes.map fun c => p.rtti.ti c.type).flatMap fun a => (p.classes.map fun c => p.rtti.ti c.type).map fun b => [a, b]).all fun ys =>
      decide (Check.expected p m ys ≠ .run i) || decide (withoutB p m ys i = o)) = true) : UniformAt p m i := by
  intro xs ys r hx hy hEx hEy hw
  simp only [List.all_eq_true, Bool.or_eq_true, decide_eq_true_eq] at h
  have key : ∀ zs, Callable p m zs → Expected p m zs (.run i) → withoutB p m zs i = o := by
    intro zs hz hE
    rcases h zs (callable_pair hvp hz) with h | h
    · exact absurd ((Check.expected_spec hr m zs).unique hE) h
    · exact h
  obtain rfl := best_unique (withoutB_spec hr xs i) hw
  rw [key xs hx hEx, ← key ys hy hEy]
  exact withoutB_spec hr ys i

/-- The method is not covered, so C13-C15 do not apply, but C90 does. A call with two objects of class 4 runs the first overrider, and `next` reports that the call is ambiguous, as it does
for two objects of class 2, which the fourth overrider does not accept. -/
example : ∃ rep img args, uniformProg.Valid ∧ uniformProg.Distinct ∧ install .std false uniformProg 0 = .ok (rep, img) ∧ CallTo uniformProg 0 img uniformMeth args [4, 4] ∧
    (∀ ys, TransitiveAt uniformProg uniformMeth ys) ∧ callMethod 0 img uniformMeth args [] = .ok 1 ∧ (∀ i, i < 4 → UniformAt uniformProg uniformMeth i) ∧
    ¬ Covered uniformProg uniformMeth ∧ nextAt img 1 = some (.ambiguous 0) := by
  have hr : Check.ranked uniformProg = true := by decide +kernel
  obtain ⟨rep, img, args, hv, hi, hc, hrun⟩ := run_call (p := uniformProg) (m := uniformMeth) (xs := [4, 4]) (r := .ok 1) (by decide +kernel) (by decide +kernel)
    (by decide +kernel)
  have hn := nexts_eq (vs := [1]) (fs := [some (.ambiguous 0)]) (by decide +kernel) hi
  simp only [List.map_cons, List.map_nil, List.cons.injEq, and_true] at hn
  refine ⟨rep, img, args, hv, ⟨by decide, by decide⟩, hi, hc, transitive_of hr (by decide +kernel), hrun, ?_, ?_, hn⟩
  · intro i hi
    match i, hi with
    | 0, _ => exact uniform_of hr ⟨_, _, rfl⟩ 0 .ambiguous (by decide +kernel)
    | 1, _ => exact uniform_of hr ⟨_, _, rfl⟩ 1 .noOverrider (by decide +kernel)
    | 2, _ => exact uniform_of hr ⟨_, _, rfl⟩ 2 .noOverrider (by decide +kernel)
    | 3, _ => exact uniform_of hr ⟨_, _, rfl⟩ 3 .noOverrider (by decide +kernel)
  · intro h
    have hE : Expected uniformProg uniformMeth [4, 4] (.run 0) := by
      have := Check.expected_spec hr uniformMeth [4, 4]
      rwa [show Check.expected uniformProg uniformMeth [4, 4] = .run 0 by decide +kernel] at this
    have := (h [4, 4] hc.callable).2 0 (ov [2, 2] 1) rfl hE (ov [3, 1] 4) (by decide) ((Check.accepts hr).1 (by decide +kernel))
    rw [← Check.accepts hr] at this
    revert this
    decide +kernel

/-- Only one call runs the last overrider of `cycBest`. -/
theorem cycBest_only {xs : List Cls} (hc : Callable multiBest cycBest xs) (hE : Expected multiBest cycBest xs (.run 3)) : xs = [5, 9] := by
  have hr : Check.ranked multiBest = true := by decide +kernel
  obtain ⟨⟨o, ho, hA⟩, _⟩ := hE.1
  obtain rfl : ov [5, 9] 4 = o := Option.some.inj ho
  have hlow : ∀ x b, Registered multiBest x → Derives multiBest x b → b = 5 ∨ b = 9 → x = b := by
    intro x b hx hd hb
    rw [← Check.mem_anc hr] at hd
    have := Check.registered.2 hx
    simp only [Check.registeredB, List.any_eq_true, decide_eq_true_eq] at this
    obtain ⟨cr, hcr, rfl⟩ := this
    have key : ∀ cr ∈ multiBest.classes, ∀ b ∈ [5, 9], b ∈ Check.anc multiBest (multiBest.rtti.ti cr.type) → multiBest.rtti.ti cr.type = b := by decide +kernel
    exact key cr hcr b (by simpa using hb) hd
  have hA' : Accepts multiBest [5, 9] xs := hA
  cases hA' with
  | @cons _ x _ l h1 h2 =>
    cases h2 with
    | @cons _ y _ l h2 h3 =>
      cases h3
      rw [hlow x 5 (hc.2 x (by simp)) h1 (.inl rfl), hlow y 9 (hc.2 y (by simp)) h2 (.inr rfl)]

/-- Transitivity is needed for C90: the only call that runs the last overrider of `cycBest` would run the first one without it, which dominates the second, which dominates the third; but
`next` reports that the call is ambiguous. With the corrections of C89, `next` is the first overrider. -/
theorem C90_transitive : multiBest.Valid ∧ multiBest.Distinct ∧ cycBest ∈ multiBest.methods ∧ Callable multiBest cycBest [5, 9] ∧ Expected multiBest cycBest [5, 9] (.run 3) ∧
    UniformAt multiBest cycBest 3 ∧ (∃ g, FitsNext multiBest cycBest 3 g) ∧
    (∃ rep img, install .std false multiBest 0 = .ok (rep, img) ∧ ¬ ∃ g, nextAt img 4 = some g ∧ FitsNext multiBest cycBest 3 g) ∧
    ∃ rep img, installWith ⟨true, true, true⟩ .std multiBest 0 = .ok (rep, img) ∧ ∃ g, nextAt img 4 = some g ∧ FitsNext multiBest cycBest 3 g := by
  have hr : Check.ranked multiBest = true := by decide +kernel
  obtain ⟨rep, img, args, hv, hi, hc, hrun⟩ := run_any (p := multiBest) (m := cycBest) (xs := [5, 9]) (r := .ok 4) (by decide +kernel) (by decide +kernel)
    (by decide +kernel)
  have hD : multiBest.Distinct := ⟨by decide, by decide⟩
  have hE : Expected multiBest cycBest [5, 9] (.run 3) := by
    have := Check.expected_spec hr cycBest [5, 9]
    rwa [show Check.expected multiBest cycBest [5, 9] = .run 3 by decide +kernel] at this
  have hw : Without multiBest cycBest [5, 9] 3 (.run 0) := by
    have := withoutB_spec (m := cycBest) hr [5, 9] 3
    rwa [show withoutB multiBest cycBest [5, 9] 3 = .run 0 by decide +kernel] at this
  have hu : UniformAt multiBest cycBest 3 := by
    intro xs ys r hx hy hEx hEy h
    rw [cycBest_only hy hEy, ← cycBest_only hx hEx]
    exact h
  have hfit : FitsNext multiBest cycBest 3 (.user 1) := by
    intro xs hx hEx
    rw [cycBest_only hx hEx]
    exact ⟨_, hw, fun _ => ⟨ov [4, 7] 1, rfl, rfl⟩⟩
  refine ⟨hv, hD, by decide, hc.callable, hE, hu, ⟨_, hfit⟩, ⟨rep, img, hi, ?_⟩, ?_⟩
  · rintro ⟨g, hg, hg'⟩
    have hn := nexts_eq (vs := [4]) (fs := [some (.ambiguous 0)]) (by decide +kernel) hi
    simp only [List.map_cons, List.map_nil, List.cons.injEq, and_true] at hn
    obtain rfl := Option.some.inj (hn.symm.trans hg)
    obtain ⟨r, hr', hd⟩ := hg' _ hc.callable hE
    obtain rfl := best_unique hw hr'
    obtain ⟨_, _, he⟩ := hd []
    simp [enter] at he
  · obtain ⟨⟨rep', img'⟩, hi'⟩ := (C89_accepted hv ⟨true, true, true⟩ .std 0).2 ⟨_, hi⟩
    exact ⟨rep', img', hi', (C90_corrected (o := ov [5, 9] 4) hv hD rfl hi' (by decide) rfl hc.callable hE).2.2 hu⟩

end OpenMethod.Props
