import Verif.Proof.Cost
import Verif.Props.Tables
import Verif.Examples.Registries

/-! # C83: calls take constant time -/

namespace OpenMethod.Props

open Spec Examples

variable {cfg : Config} {s s' : RegState} {b : Bool} {m : MethodInfo} {args : List Arg}

/-- Counting does not change what is counted: the results are those of the model of calls. -/
theorem C83_same (cfg : Config) (s : RegState) (m : MethodInfo) (args : List Arg) (types : List TypeId) (t : TypeId) :
    (Cost.call cfg s m args types).2 = call cfg s m args types ∧ (Cost.makeVirtualPtr cfg s t).2 = makeVirtualPtr cfg s t :=
  ⟨Cost.call_snd cfg s m args types, Cost.makeVirtualPtr_snd cfg s t⟩

/-- C83: the number of reads by which a call is dispatched is given by `callCost`: it depends on the policies, and on the number of virtual arguments and whether they are `virtual_ptr`s; not on the classes, methods
and overriders. This is in any state that the registry can reach. -/
theorem C83 (h : History cfg s b) (hw : m.WF) (hl : args.length = m.params.length) (hc : m.vp.length = 1 ∨ Contiguous m.params) {types : List TypeId} (hs : Selects (call cfg s m args types)) :
    (Cost.call cfg s m args types).1.length = callCost cfg (virtualArgs m.params args) := by
  have hv := Cost.virtualArgs_length m.params args hl
  rw [(Cost.call_reads h.fits hw.pos args types).2 hs]
  have e : Cost.lookedFrom m.arity m.params args = virtualArgs m.params args := by
    have hk := hw.kinds
    rcases hc with hc | ⟨a, n, c, hp⟩
    · rw [MethodInfo.arity, hc]
      exact Cost.lookedFrom_one _ _ (hk.trans hc)
    · have hn : m.vp.length = n := by
        rw [← hk, hp]
        simp [List.count_replicate]
      rw [MethodInfo.arity, hn, hp, List.append_assoc]
      exact Cost.lookedFrom_contiguous (by have := hw.pos; omega) c a args
  rw [e, callCost, hv, hw.kinds, Nat.add_assoc]
  rfl

/-- At most, for any parameters, and if an error is detected. -/
theorem C83_bound (h : History cfg s b) (hw : m.WF) (hl : args.length = m.params.length) (types : List TypeId) :
    (Cost.call cfg s m args types).1.length ≤ callCost cfg (virtualArgs m.params args) := by
  have hv := Cost.virtualArgs_length m.params args hl
  refine (Cost.call_reads h.fits hw.pos args types).1.trans ?_
  have hsub := Cost.lookedFrom_sublist m.arity m.params args
  have h1 : ((Cost.lookedFrom m.arity m.params args).map (argCost cfg)).sum ≤ ((virtualArgs m.params args).map (argCost cfg)).sum := Cost.sum_le (hsub.map _)
  have h2 := hsub.length_le
  rw [callCost, hv, hw.kinds]
  rw [hv, hw.kinds] at h2
  unfold MethodInfo.arity at h1 h2 ⊢
  split <;> split <;> omega

/-- Two registries with the same policies, whatever is registered, and two methods with the same parameters: calls with arguments of the same kinds take the same number of reads. -/
theorem C83_constant {b' : Bool} {m' : MethodInfo} {args' : List Arg} (h : History cfg s b) (h' : History cfg s' b') (hw : m.WF) (hw' : m'.WF) (hm : m'.params = m.params)
    (ha : args.map (argCost cfg) = args'.map (argCost cfg)) {types types' : List TypeId} (hs : Selects (call cfg s m args types)) (hs' : Selects (call cfg s' m' args' types')) :
    (Cost.call cfg s m args types).1.length = (Cost.call cfg s' m' args' types').1.length := by
  have e : m'.arity = m.arity := by rw [MethodInfo.arity, MethodInfo.arity, ← hw.kinds, ← hw'.kinds, hm]
  rw [(Cost.call_reads h.fits hw.pos args types).2 hs, (Cost.call_reads h'.fits hw'.pos args' types').2 hs', e, hm]
  have e1 : (Cost.lookedFrom m.arity m.params args).map (argCost cfg) = (Cost.lookedFrom m.arity m.params args').map (argCost cfg) := by
    rw [← Cost.lookedFrom_map, ← Cost.lookedFrom_map, ha]
  have e2 : (Cost.lookedFrom m.arity m.params args).length = (Cost.lookedFrom m.arity m.params args').length := by
    have := congrArg List.length e1
    simpa using this
  rw [e1, e2]

/-- The reads of a call with one virtual argument, a `virtual_ptr`, without `indirect_vptr` and without `runtime_checks`: the slot of the method, and the element of the v-table; as in performance.adoc. -/
theorem C83_virtual_ptr (hk : cfg.checks = false) (hm : m.params = [true]) (hv : m.vp.length = 1) {slot : Nat} {rest : List Nat} (hs : s.ss m.id = some (slot :: rest)) (p : Ptr) (types : List TypeId) :
    (Cost.call cfg s m [.vptr (.direct (some p))] types).1 = [.slotsStrides m.id 0, .word (p.add slot)] := by
  have hr : Cost.requireInitialized cfg s = Cost.lift (.ok ()) := by rw [Cost.requireInitialized, hk]; rfl
  have ha : m.arity = 1 := hv
  unfold Cost.call
  rw [hr, hs, hm, ha]
  rcases hw : readWord s.gen s.data (p.add slot) with w | e | _
  · rcases w with f | n | q <;> simp [Cost.resolve, Cost.resolveUni, Cost.argPtr, Cost.lift, Cost.slotStride, Cost.word, Cost.load, Bind.bind, Cost.bind, Res.ofOption, hw, Word.asPf]
  · simp [Cost.resolve, Cost.resolveUni, Cost.argPtr, Cost.lift, Cost.slotStride, Cost.word, Cost.load, Bind.bind, Cost.bind, Res.ofOption, hw]
  · simp [Cost.resolve, Cost.resolveUni, Cost.argPtr, Cost.lift, Cost.slotStride, Cost.word, Cost.load, Bind.bind, Cost.bind, Res.ofOption, hw]

/-- The reads of a call with one virtual argument, a reference, in the default registry without `runtime_checks`: the factors of the hash function and the element of the vector are found first. -/
theorem C83_reference (hv : cfg.vector = true) (ht : cfg.typeHash = true) (hk : cfg.checks = false) (hm : m.params = [true]) (h1 : m.vp.length = 1) {slot : Nat} {rest : List Nat}
    (hs : s.ss m.id = some (slot :: rest)) {t : TypeId} {p : Ptr} (hp : argPtr cfg s (.obj t) = .ok p) (hi : cfg.indirect = false) (h : History cfg s b) (types : List TypeId) :
    (Cost.call cfg s m [.obj t] types).1 = [.type t, .mult, .shift, .vector, .vectorAt (hashIndex s.vptr.hash.mult s.vptr.hash.shift t), .slotsStrides m.id 0, .word (p.add slot)] := by
  have hr : Cost.requireInitialized cfg s = Cost.lift (.ok ()) := by rw [Cost.requireInitialized, hk]; rfl
  have ha : m.arity = 1 := h1
  have hA : Cost.argPtr cfg s (.obj t) = ([.type t, .mult, .shift, .vector, .vectorAt (hashIndex s.vptr.hash.mult s.vptr.hash.shift t)], .ok p) := by
    have h2 := Cost.argPtr_snd cfg s (.obj t)
    rw [hp] at h2
    refine Prod.ext ?_ h2
    unfold Cost.argPtr Cost.acquireVptr Cost.dynamicVptr
    rw [hr, hv, ht, hk]
    cases hx : s.vptr.vec[hashIndex s.vptr.hash.mult s.vptr.hash.shift t]? with
    | none => simp [Cost.hash, Cost.lift, Cost.load, Bind.bind, Cost.bind, hx]
    | some x =>
      have hfit := h.fits.vec x (List.mem_of_getElem? hx)
      cases x with
      | null => simp [Cost.hash, Cost.lift, Cost.load, Bind.bind, Cost.bind, hx, Stored.ref, hi, Cost.read]
      | direct q => simp [Cost.hash, Cost.lift, Cost.load, Bind.bind, Cost.bind, hx, Stored.ref, Cost.read]
      | indirect v => simp [Stored.Fits, hi] at hfit
  unfold Cost.call
  rw [hr, hs, hm, ha]
  rcases hw : readWord s.gen s.data (p.add slot) with w | e | _
  · rcases w with f | n | q <;> simp [hA, Cost.resolve, Cost.resolveUni, Cost.lift, Cost.slotStride, Cost.word, Cost.load, Bind.bind, Cost.bind, Res.ofOption, hw, Word.asPf]
  · simp [hA, Cost.resolve, Cost.resolveUni, Cost.lift, Cost.slotStride, Cost.word, Cost.load, Bind.bind, Cost.bind, Res.ofOption, hw]
  · simp [hA, Cost.resolve, Cost.resolveUni, Cost.lift, Cost.slotStride, Cost.word, Cost.load, Bind.bind, Cost.bind, Res.ofOption, hw]

/-- Making a `virtual_ptr` from an object. -/
theorem C83_make (cfg : Config) (s : RegState) (t : TypeId) : (Cost.makeVirtualPtr cfg s t).1.length ≤ lookupCost cfg ∧
    ∀ v, makeVirtualPtr cfg s t = .ok v → (Cost.makeVirtualPtr cfg s t).1.length = lookupCost cfg := by
  have h := (Cost.takes_acquireVptr cfg s t).bind (f := fun r => Cost.lift (boxVptr cfg r)) fun _ => Cost.takes_lift _
  exact ⟨h.le, fun v hv => h.eq v ((Cost.makeVirtualPtr_snd cfg s t).trans hv)⟩

/-- Calls select a function after a successful `initialize`, except in the situations in which the library is wrong (C05, C06). -/
theorem C83_selects {E : Env} {p : Program} {rep : Report} (hp : p.Good E.cfg) (hi : Initializes E p s s' rep) (hm : m ∈ p.methods) {xs : List Cls} (ha : Provided E.cfg p s' m.params args xs)
    (hx : Callable p m xs) (ho : ArgsSafe p (classesOf p m.vp) xs) (hc : m.vp.length = 1 ∨ Contiguous m.params) (types : List TypeId) : Selects (call E.cfg s' m args types) := by
  obtain ⟨c, img, R, _⟩ := init_ready hp hi
  have hargs : ArgsFor (img.ptr s.fresh) m.params (args.map (argPtr E.cfg s')) xs := by
    clear hx ho hc hm
    generalize m.params = ks at ha
    induction ha with
    | nil => exact .nil
    | obj t ht _ ih => rw [List.map_cons, R.argPtr ht]; exact .virt _ ih
    | vptr t ht hb _ ih =>
      have : argPtr E.cfg s' (.vptr _) = .ok (img.ptr s.fresh (p.rtti.ti t)) := R.unbox ht hb
      rw [List.map_cons, this]; exact .virt _ ih
    | other a _ ih => rw [List.map_cons]; exact .other _ ih
  rw [R.call hm]
  obtain ⟨left, _, h2⟩ := call_gen hp.valid R.install ⟨hm, hargs, hx, ho, hc⟩ types
  rw [h2]
  unfold resultFor
  split
  · split
    · exact .inr (.inl ⟨_, _, rfl⟩)
    · exact .inl ⟨_, rfl⟩
  · unfold resultOf
    split
    · exact .inr (.inl ⟨_, _, rfl⟩)
    · exact .inl ⟨_, rfl⟩
    · exact .inr (.inr ⟨_, _, rfl⟩)

/-- The default registry, without `runtime_checks`: two reads with a `virtual_ptr`, seven with a reference, six with two `virtual_ptr`s. -/
example (p : Ptr) (t : TypeId) : callCost (Config.fast hashed) [.vptr (.direct (some p))] = 2 ∧ callCost (Config.fast hashed) [.obj t] = 7 ∧
    callCost (Config.fast hashed) [.vptr (.direct (some p)), .vptr (.direct (some p))] = 6 := ⟨rfl, rfl, rfl⟩

/-- The seven reads of a call with a reference. -/
example : ((inits (env (Config.fast hashed)) [zoo] .init).map fun s => ((Cost.call (Config.fast hashed) s bark [.obj 2] []).1, s.ss bark.id)) =
    some ([.type 2, .mult, .shift, .vector, .vectorAt 2, .slotsStrides 2 0, .word ⟨1, 16⟩], some [3]) := by decide +kernel

/-- With `runtime_checks`, a call with two objects. -/
example : ∃ s, History hashed s true ∧ (Cost.call hashed s meet [.obj 0, .obj 4, .obj 3, .obj 0] []).1.length = 27 := by
  obtain ⟨s, rep, hi, hc⟩ := callAfter_eq (E := env hashed) (p := zoo) (m := meet) (args := [.obj 0, .obj 4, .obj 3, .obj 0]) (r := .ok 23) (by decide +kernel)
  have h : History hashed s true := .ok .start rfl hi
  exact ⟨s, h, C83 h ⟨by decide, by decide, by decide⟩ rfl (.inr ⟨1, 2, 1, rfl⟩) (.inl ⟨23, hc⟩)⟩

/-- If the virtual parameters are not contiguous, some of them are not looked at (C05), and the cost is lower. -/
example : ((inits (env hashed) [zoo] .init).map fun s => ((Cost.call hashed s meet [.obj 0, .obj 4, .obj 3, .obj 0] []).1.length,
    (Cost.call hashed s { meet with params := [true, false, true] } [.obj 4, .obj 0, .obj 3] []).1.length)) = some (27, 14) := by decide +kernel

end OpenMethod.Props
