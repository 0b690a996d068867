import Verif.SpecThreads
import Verif.Proof.Memory
import Verif.Proof.Cost

/-! # Threads -/

namespace OpenMethod

namespace Prog

variable {α β : Type}

/-! ## Executing a program alone -/

def run (s : RegState) : Prog α → Res α × RegState
  | .done r => (r, s)
  | .load l k => (k (l.get s)).run s
  | .inspect k => (k s).run s
  | .write w k => k.run (w.apply s)

/-- Only reads. -/
def ReadOnly : Prog α → Prop
  | .done _ => True
  | .load _ k => ∀ v, (k v).ReadOnly
  | .inspect _ => False
  | .write _ _ => False

/-- The reads, and the result. -/
def cost (s : RegState) : Prog α → Cost α
  | .done r => ([], r)
  | .load l k => (l :: ((k (l.get s)).cost s).1, ((k (l.get s)).cost s).2)
  | .inspect k => (k s).cost s
  | .write w k => k.cost (w.apply s)

theorem ReadOnly.run {p : Prog α} (h : p.ReadOnly) (s : RegState) : p.run s = ((p.cost s).2, s) := by
  induction p with
  | done r => rfl
  | load l k ih => exact ih _ (h _)
  | inspect k => exact h.elim
  | write w k => exact h.elim

theorem ReadOnly.bind {p : Prog α} {f : α → Prog β} (h : p.ReadOnly) (hf : ∀ a, (f a).ReadOnly) : (p >>= f).ReadOnly := by
  show (p.bind f).ReadOnly
  induction p with
  | done r => cases r <;> simp [Prog.bind, ReadOnly, hf]
  | load l k ih => exact fun v => ih v (h v)
  | inspect k => exact h.elim
  | write w k => exact h.elim

theorem ReadOnly.map {p : Prog α} (h : p.ReadOnly) (f : α → OpResult) : (p.map f).ReadOnly := by
  induction p with
  | done r => trivial
  | load l k ih => exact fun v => ih v (h v)
  | inspect k => exact h.elim
  | write w k => exact h.elim

theorem readOnly_done (r : Res α) : (Prog.done r).ReadOnly := trivial

theorem readOnly_read (l : Load) : (read l).ReadOnly := fun _ => trivial

theorem run_map (p : Prog α) (f : α → OpResult) (s : RegState) : (p.map f).run s = (OpResult.of f (p.run s).1, (p.run s).2) := by
  induction p generalizing s with
  | done r => rfl
  | load l k ih => exact ih _ s
  | inspect k ih => exact ih s s
  | write w k ih => exact ih _

/-! ## Calls -/

@[simp] theorem cost_done (s : RegState) (r : Res α) : (Prog.done r).cost s = Cost.lift r := rfl

theorem cost_bind (s : RegState) {p : Prog α} (h : p.ReadOnly) (f : α → Prog β) : (p >>= f).cost s = p.cost s >>= fun a => (f a).cost s := by
  show (p.bind f).cost s = Cost.bind (p.cost s) fun a => (f a).cost s
  induction p with
  | done r => cases r <;> rfl
  | load l k ih =>
    have := ih (l.get s) (h _)
    simp only [Prog.bind, cost, this]
    generalize (k (l.get s)).cost s = x
    rcases x with ⟨x, a | e | _⟩ <;> rfl
  | inspect k => exact h.elim
  | write w k => exact h.elim

theorem cost_read (s : RegState) (l : Load) (f : l.Val → Prog β) : (read l >>= f).cost s = Cost.load l >>= fun _ => (f (l.get s)).cost s := by
  rw [cost_bind s (readOnly_read l)]; rfl

theorem requireInitialized_ro (cfg : Config) : (requireInitialized cfg).ReadOnly := by
  unfold requireInitialized
  split
  · exact (readOnly_read _).bind fun _ => readOnly_done _
  · exact readOnly_done _

theorem requireInitialized_cost (cfg : Config) (s : RegState) : (requireInitialized cfg).cost s = Cost.requireInitialized cfg s := by
  unfold requireInitialized Cost.requireInitialized
  split
  · rw [cost_read]; rfl
  · rfl

theorem hashCheck_ro (i : Nat) (t : TypeId) : (hashCheck i t).ReadOnly := by
  unfold hashCheck
  refine (readOnly_read _).bind fun mn => ?_
  split
  · trivial
  refine (readOnly_read _).bind fun mx => ?_
  split
  · trivial
  refine (readOnly_read _).bind fun _ => (readOnly_read _).bind fun b => ?_
  cases b <;> trivial

theorem hashCheck_cost (i : Nat) (t : TypeId) (s : RegState) : (hashCheck i t).cost s = Cost.hashCheck s.vptr.hash i t := by
  unfold hashCheck Cost.hashCheck
  rw [cost_read]
  congr 1; funext _
  show Prog.cost s (if i < s.vptr.hash.min then _ else _) = _
  split
  · rfl
  rw [cost_read]
  congr 1; funext _
  show Prog.cost s (if s.vptr.hash.max < i then _ else _) = _
  split
  · rfl
  rw [cost_read]
  congr 1; funext _
  rw [cost_read]
  congr 1; funext _
  simp only [Load.get]
  cases s.vptr.hash.buckets[i]? <;> rfl

theorem hash_ro (c : Bool) (t : TypeId) : (hash c t).ReadOnly := by
  unfold hash
  refine (readOnly_read _).bind fun _ => (readOnly_read _).bind fun _ => ?_
  cases c
  · exact (readOnly_done _).bind fun _ => readOnly_done _
  · exact (hashCheck_ro _ _).bind fun _ => readOnly_done _

theorem hash_cost (c : Bool) (t : TypeId) (s : RegState) : (hash c t).cost s = Cost.hash c s.vptr.hash t := by
  unfold hash Cost.hash
  rw [cost_read]
  congr 1; funext _
  rw [cost_read]
  congr 1; funext _
  cases c
  · rfl
  · simp only [if_true, Load.get]
    rw [cost_bind s (hashCheck_ro _ _), hashCheck_cost]
    rfl

theorem dynamicVptr_ro (cfg : Config) (t : TypeId) : (dynamicVptr cfg t).ReadOnly := by
  have hend : ∀ i, (read .vector >>= fun _ => read (.vectorAt i) >>= fun b => match b with | none => Prog.done .ub | some x => Prog.done (x.ref cfg) : Prog VRef).ReadOnly := by
    intro i
    refine (readOnly_read _).bind fun _ => (readOnly_read _).bind fun b => ?_
    cases b <;> exact readOnly_done _
  unfold dynamicVptr
  refine (readOnly_read _).bind fun _ => ?_
  rcases cfg with ⟨c, i, v, h⟩
  cases v
  · refine (readOnly_read _).bind fun b => ?_
    cases b <;> exact readOnly_done _
  · cases h
    · cases c
      · exact (readOnly_done _).bind fun _ => (readOnly_done _).bind fun _ => hend _
      · exact (readOnly_done _).bind fun _ => (readOnly_read _).bind fun _ => (readOnly_done _).bind fun _ => hend _
    · exact (hash_ro _ _).bind fun _ => (readOnly_done _).bind fun _ => hend _

theorem dynamicVptr_cost (cfg : Config) (t : TypeId) (s : RegState) : (dynamicVptr cfg t).cost s = Cost.dynamicVptr cfg s.vptr t := by
  have hend : ∀ i, (read .vector >>= fun _ => read (.vectorAt i) >>= fun b => match b with | none => Prog.done .ub | some x => Prog.done (x.ref cfg) : Prog VRef).cost s =
      Cost.load .vector >>= fun _ => Cost.load (.vectorAt i) >>= fun _ => match s.vptr.vec[i]? with | none => Cost.lift .ub | some x => Cost.lift (x.ref cfg) := by
    intro i
    rw [cost_read]
    congr 1; funext _
    rw [cost_read]
    congr 1; funext _
    simp only [Load.get]
    cases s.vptr.vec[i]? <;> rfl
  unfold dynamicVptr Cost.dynamicVptr
  rw [cost_read]
  congr 1; funext _
  rcases cfg with ⟨c, i, v, h⟩
  cases v
  · simp only [Bool.false_eq_true, if_false]
    rw [cost_read]
    congr 1; funext _
    simp only [Load.get]
    cases s.vptr.map.find? (fun y => y.1 == t) <;> rfl
  · cases h
    · cases c
      · simp only [Bool.false_eq_true, if_false, if_true, Bool.not_false, Bool.and_false]
        rw [cost_bind s (readOnly_done _)]
        refine congrArg _ (funext fun i => ?_)
        rw [cost_bind s (readOnly_done _)]
        exact congrArg _ (funext fun _ => hend i)
      · simp only [Bool.false_eq_true, if_false, if_true, Bool.not_false, Bool.and_self]
        rw [cost_bind s (readOnly_done _)]
        refine congrArg _ (funext fun i => ?_)
        rw [cost_read]
        refine congrArg _ (funext fun _ => ?_)
        rw [cost_bind s (readOnly_done _)]
        exact congrArg _ (funext fun _ => hend i)
    · simp only [Bool.false_eq_true, if_false, if_true, Bool.not_true, Bool.false_and]
      rw [cost_bind s (hash_ro _ _), hash_cost]
      refine congrArg _ (funext fun i => ?_)
      rw [cost_bind s (readOnly_done _)]
      exact congrArg _ (funext fun _ => hend i)

theorem acquireVptr_ro (cfg : Config) (t : TypeId) : (acquireVptr cfg t).ReadOnly :=
  (requireInitialized_ro cfg).bind fun _ => dynamicVptr_ro cfg t

theorem acquireVptr_cost (cfg : Config) (t : TypeId) (s : RegState) : (acquireVptr cfg t).cost s = Cost.acquireVptr cfg s t := by
  unfold acquireVptr Cost.acquireVptr
  rw [cost_bind s (requireInitialized_ro cfg), requireInitialized_cost, dynamicVptr_cost]

theorem follow_ro (r : VRef) : (follow r).ReadOnly := by
  cases r with
  | value p => trivial
  | var v => exact (readOnly_read _).bind fun _ => trivial

theorem follow_cost (r : VRef) (s : RegState) : (follow r).cost s = Cost.read s.svptr r := by
  cases r with
  | value p => rfl
  | var v =>
    unfold follow Cost.read
    rw [cost_read]; rfl

theorem argPtr_ro (cfg : Config) (a : Arg) : (argPtr cfg a).ReadOnly := by
  rcases a with t | (p | v)
  · exact (acquireVptr_ro cfg t).bind follow_ro
  · trivial
  · exact follow_ro (.var v)

theorem argPtr_cost (cfg : Config) (a : Arg) (s : RegState) : (argPtr cfg a).cost s = Cost.argPtr cfg s a := by
  rcases a with t | (p | v)
  · unfold argPtr Cost.argPtr
    dsimp only
    rw [cost_bind s (acquireVptr_ro cfg t), acquireVptr_cost]
    simp only [follow_cost]
  · rfl
  · exact follow_cost (.var v) s

theorem word_ro (p : Ptr) : (word p).ReadOnly := (readOnly_read _).bind fun _ => trivial

theorem word_cost (p : Ptr) (s : RegState) : (word p).cost s = Cost.word (readWord s.gen s.data) p := by
  unfold word Cost.word
  rw [cost_read]; rfl

theorem slotStride_ro (m i : Nat) : (slotStride m i).ReadOnly := (readOnly_read _).bind fun _ => trivial

theorem slotStride_cost {m : Nat} {s : RegState} {ss : List Nat} (h : s.ss m = some ss) (i : Nat) : (slotStride m i).cost s = Cost.slotStride m ss i := by
  unfold slotStride Cost.slotStride
  rw [cost_read]
  simp only [Load.get, h, Option.bind_some]
  rfl

theorem resolveUni_ro (m : Nat) : ∀ (ks : List Bool) {as : List (Prog Ptr)}, (∀ a ∈ as, a.ReadOnly) → (resolveUni m ks as).ReadOnly
  | true :: ks, a :: as, h => (h a (by simp)).bind fun _ => (slotStride_ro m 0).bind fun _ => word_ro _
  | false :: ks, _ :: as, h => resolveUni_ro m ks (as := as) fun a ha => h a (by simp [ha])
  | [], _, _ => by unfold resolveUni; trivial
  | true :: _, [], _ => by unfold resolveUni; trivial
  | false :: _, [], _ => by unfold resolveUni; trivial

theorem resolveUni_cost {m : Nat} {s : RegState} {ss : List Nat} (h : s.ss m = some ss) : ∀ (ks : List Bool) {as : List (Prog Ptr)}, (∀ a ∈ as, a.ReadOnly) →
    (resolveUni m ks as).cost s = Cost.resolveUni (readWord s.gen s.data) m ss ks (as.map (·.cost s))
  | true :: ks, a :: as, ha => by
    unfold resolveUni Cost.resolveUni
    rw [cost_bind s (ha a (by simp))]
    simp only [cost_bind s (slotStride_ro m 0), slotStride_cost h, word_cost, List.map_cons]
  | false :: ks, a :: as, ha => by
    unfold resolveUni
    rw [resolveUni_cost h ks (as := as) fun a ha' => ha a (by simp [ha'])]
    rfl
  | [], _, _ => by unfold resolveUni Cost.resolveUni; rfl
  | true :: _, [], _ => by unfold resolveUni Cost.resolveUni; rfl
  | false :: _, [], _ => by unfold resolveUni Cost.resolveUni; rfl

theorem nextDispatch_ro (m arity va : Nat) (d : Ptr) (k : Bool) {a : Prog Ptr} (h : a.ReadOnly) : (nextDispatch m arity va d k a).ReadOnly := by
  unfold nextDispatch
  split
  · exact h.bind fun _ => (slotStride_ro _ _).bind fun _ => (slotStride_ro _ _).bind fun _ => (word_ro _).bind fun _ => (readOnly_done _).bind fun _ => trivial
  · trivial

theorem nextDispatch_cost {m : Nat} {s : RegState} {ss : List Nat} (h : s.ss m = some ss) (arity va : Nat) (d : Ptr) (k : Bool) {a : Prog Ptr} (ha : a.ReadOnly) :
    (nextDispatch m arity va d k a).cost s = Cost.nextDispatch (readWord s.gen s.data) m ss arity va d k (a.cost s) := by
  unfold nextDispatch Cost.nextDispatch
  split
  · rw [cost_bind s ha]
    simp only [cost_bind s (slotStride_ro _ _), slotStride_cost h, cost_bind s (word_ro _), word_cost, cost_bind s (readOnly_done _), cost_done]
  · rfl

theorem resolveMultiNext_ro (m arity : Nat) : ∀ (va : Nat) (d : Ptr) (ks : List Bool) {as : List (Prog Ptr)}, (∀ a ∈ as, a.ReadOnly) → (resolveMultiNext m arity va d ks as).ReadOnly
  | va, d, k :: ks, a :: as, h => by
    unfold resolveMultiNext
    refine (nextDispatch_ro m arity va d k (h a (by simp))).bind fun d' => ?_
    split
    · exact word_ro _
    · exact resolveMultiNext_ro m arity _ _ ks fun a ha => h a (by simp [ha])
  | _, _, [], _, _ => by unfold resolveMultiNext; trivial
  | _, _, _ :: _, [], _ => by unfold resolveMultiNext; trivial

theorem resolveMultiNext_cost {m : Nat} {s : RegState} {ss : List Nat} (h : s.ss m = some ss) (arity : Nat) : ∀ (va : Nat) (d : Ptr) (ks : List Bool) {as : List (Prog Ptr)}, (∀ a ∈ as, a.ReadOnly) →
    (resolveMultiNext m arity va d ks as).cost s = Cost.resolveMultiNext (readWord s.gen s.data) m ss arity va d ks (as.map (·.cost s))
  | va, d, k :: ks, a :: as, ha => by
    unfold resolveMultiNext
    rw [cost_bind s (nextDispatch_ro m arity va d k (ha a (by simp))), nextDispatch_cost h arity va d k (ha a (by simp)), List.map_cons, Cost.resolveMultiNext]
    congr 1; funext d'
    split
    · exact word_cost _ _
    · exact resolveMultiNext_cost h arity _ _ ks fun a ha' => ha a (by simp [ha'])
  | _, _, [], _, _ => by unfold resolveMultiNext Cost.resolveMultiNext; rfl
  | _, _, _ :: _, [], _ => by unfold resolveMultiNext Cost.resolveMultiNext; rfl

theorem resolveMultiFirst_ro (m arity : Nat) : ∀ (ks : List Bool) {as : List (Prog Ptr)}, (∀ a ∈ as, a.ReadOnly) → (resolveMultiFirst m arity ks as).ReadOnly
  | true :: ks, a :: as, h => (h a (by simp)).bind fun _ => (slotStride_ro m 0).bind fun _ => (word_ro _).bind fun _ => (readOnly_done _).bind fun _ =>
      resolveMultiNext_ro m arity _ _ ks fun a ha => h a (by simp [ha])
  | false :: ks, _ :: as, h => resolveMultiFirst_ro m arity ks (as := as) fun a ha => h a (by simp [ha])
  | [], _, _ => by unfold resolveMultiFirst; trivial
  | true :: _, [], _ => by unfold resolveMultiFirst; trivial
  | false :: _, [], _ => by unfold resolveMultiFirst; trivial

theorem resolveMultiFirst_cost {m : Nat} {s : RegState} {ss : List Nat} (h : s.ss m = some ss) (arity : Nat) : ∀ (ks : List Bool) {as : List (Prog Ptr)}, (∀ a ∈ as, a.ReadOnly) →
    (resolveMultiFirst m arity ks as).cost s = Cost.resolveMultiFirst (readWord s.gen s.data) m ss arity ks (as.map (·.cost s))
  | true :: ks, a :: as, ha => by
    unfold resolveMultiFirst Cost.resolveMultiFirst
    rw [cost_bind s (ha a (by simp))]
    have h2 := fun d => resolveMultiNext_cost h arity 1 d ks fun a ha' => ha a (List.mem_cons_of_mem _ ha')
    simp only [cost_bind s (slotStride_ro m 0), slotStride_cost h, cost_bind s (word_ro _), word_cost, cost_bind s (readOnly_done _), cost_done, List.map_cons, h2]
  | false :: ks, a :: as, ha => by
    unfold resolveMultiFirst
    rw [resolveMultiFirst_cost h arity ks (as := as) fun a ha' => ha a (by simp [ha'])]
    rfl
  | [], _, _ => by unfold resolveMultiFirst Cost.resolveMultiFirst; rfl
  | true :: _, [], _ => by unfold resolveMultiFirst Cost.resolveMultiFirst; rfl
  | false :: _, [], _ => by unfold resolveMultiFirst Cost.resolveMultiFirst; rfl

theorem args_ro (cfg : Config) (args : List Arg) : ∀ a ∈ args.map (argPtr cfg), a.ReadOnly := by
  intro a ha
  obtain ⟨x, _, rfl⟩ := List.mem_map.1 ha
  exact argPtr_ro cfg x

theorem resolve_ro (m arity : Nat) (ks : List Bool) {as : List (Prog Ptr)} (h : ∀ a ∈ as, a.ReadOnly) : (resolve m arity ks as).ReadOnly := by
  unfold resolve
  dsimp only
  split
  · exact (resolveUni_ro m ks h).bind fun _ => readOnly_done _
  · exact (resolveMultiFirst_ro m arity ks h).bind fun _ => readOnly_done _

theorem call_ro (cfg : Config) (m : MethodInfo) (args : List Arg) (types : List TypeId) : (call cfg m args types).ReadOnly :=
  (requireInitialized_ro cfg).bind fun _ => (resolve_ro _ _ _ (args_ro cfg args)).bind fun _ => trivial

/-- The accesses of a call are those that were counted. -/
theorem call_cost (cfg : Config) {m : MethodInfo} {s : RegState} {ss : List Nat} (h : s.ss m.id = some ss) (args : List Arg) (types : List TypeId) :
    (call cfg m args types).cost s = Cost.call cfg s m args types := by
  have e : (args.map (argPtr cfg)).map (·.cost s) = args.map (Cost.argPtr cfg s) := by
    rw [List.map_map]
    exact List.map_congr_left fun a _ => argPtr_cost cfg a s
  have hr : (resolve m.id m.arity m.params (args.map (argPtr cfg))).cost s = Cost.resolve (readWord s.gen s.data) m.id ss m.arity m.params (args.map (Cost.argPtr cfg s)) := by
    unfold resolve Cost.resolve
    dsimp only
    split
    · rw [cost_bind s (resolveUni_ro _ _ (args_ro cfg args)), resolveUni_cost h m.params (args_ro cfg args), e]; rfl
    · rw [cost_bind s (resolveMultiFirst_ro _ _ _ (args_ro cfg args)), resolveMultiFirst_cost h m.arity m.params (args_ro cfg args), e]; rfl
  unfold call Cost.call
  rw [cost_bind s (requireInitialized_ro cfg), requireInitialized_cost]
  congr 1; funext _
  rw [cost_bind s (resolve_ro _ _ _ (args_ro cfg args)), hr, h]
  rfl

theorem makeVirtualPtr_ro (cfg : Config) (t : TypeId) : (makeVirtualPtr cfg t).ReadOnly := (acquireVptr_ro cfg t).bind fun _ => trivial

theorem makeVirtualPtr_cost (cfg : Config) (t : TypeId) (s : RegState) : (makeVirtualPtr cfg t).cost s = Cost.makeVirtualPtr cfg s t := by
  unfold makeVirtualPtr Cost.makeVirtualPtr
  rw [cost_bind s (acquireVptr_ro cfg t), acquireVptr_cost]
  rfl

theorem hasNext_ro (m : Nat) (v : VarId) : (hasNext m v).ReadOnly := by
  refine (readOnly_read _).bind fun f => ?_
  split
  · trivial
  · exact (readOnly_read _).bind fun _ => trivial

theorem hasNext_run (m : Nat) (v : VarId) (s : RegState) : (hasNext m v).run s = (.ok (OpenMethod.hasNext m (s.next v)), s) := by
  show Prog.run s (if s.next v = some (.notImplemented m) then Prog.done (.ok false) else _) = _
  unfold OpenMethod.hasNext
  split
  · rfl
  · show (Res.ok (decide (s.next v ≠ some (.ambiguous m))), s) = _
    split <;> simp [*]

theorem callNext_ro (v : VarId) (types : List TypeId) : (callNext v types).ReadOnly := (readOnly_read _).bind fun _ => (readOnly_done _).bind fun _ => trivial

theorem callNext_run (v : VarId) (types : List TypeId) (s : RegState) : (callNext v types).run s = (Res.ofOption (s.next v) >>= fun f => enter f types, s) := by
  show Prog.run s (Prog.done (Res.ofOption (s.next v)) >>= fun f => Prog.done (enter f types)) = _
  cases s.next v <;> rfl

/-! ## `initialize` and `finalize` -/

theorem run_writes (ws : List Write) (k : Prog α) (s : RegState) : (writes ws k).run s = k.run (ws.foldl Write.apply s) := by
  induction ws generalizing s with
  | nil => rfl
  | cons w ws ih => exact ih (w.apply s)

theorem allocate_stores (l : List Store) (s : RegState) :
    (Write.allocate :: l.map .global).foldl Write.apply s = { l.foldl Store.apply s with fresh := s.fresh + 1 } := by
  rw [List.foldl_cons, List.foldl_map]
  show l.foldl Store.apply { s with fresh := s.fresh + 1 } = _
  induction l generalizing s with
  | nil => rfl
  | cons x l ih =>
    rw [List.foldl_cons, List.foldl_cons]
    have := ih (x.apply s)
    rw [(x.apply_keeps s).2.2] at this
    rw [← this]
    cases x <;> rfl

theorem init_run (E : Env) (p : Program) (s : RegState) : match initRegistry E p s with
    | .ub => ((init E p).run s).1 = .ub
    | .err _ => False
    | .ok r => (init E p).run s = (.ok r.result, r.state) := by
  have h0 : (init E p).run s = Prog.run s (match compile E.platform E.n2216 p with
    | .ub => .done .ub
    | .err e => .done (.ok (.error e))
    | .ok c =>
      match writeGlobal c s.fresh with
      | .ub => .done .ub
      | .err e => .done (.ok (.error e))
      | .ok img =>
        writes (.allocate :: (stores c.lattice img s.fresh).map .global) (
          let s1 := applyImage c.lattice img s
          match vptrInit E.cfg E.rnd s1.svptr (ctxClasses c.lattice) s1.vptr with
          | .ub => .done .ub
          | .err e => .done (.ok (.error e))
          | .ok v =>
            .write (.policies v.state) (
              match v.error with
              | some e => .done (.ok (.error e))
              | none => writes [.data img.data s.fresh, .initialized true] (.done (.ok (.ok c.report)))))) := rfl
  rw [h0]
  unfold initRegistry
  cases hc : compile E.platform E.n2216 p with
  | ub => rfl
  | err e => rfl
  | ok c =>
    dsimp only
    cases hw : writeGlobal c s.fresh with
    | ub => rfl
    | err e => rfl
    | ok img =>
      dsimp only
      rw [run_writes, allocate_stores, stores_all]
      cases hv : vptrInit E.cfg E.rnd (applyImage c.lattice img s).svptr (ctxClasses c.lattice) (applyImage c.lattice img s).vptr with
      | ub => rfl
      | err e => rfl
      | ok v =>
        dsimp only
        cases he : v.error with
        | some e => rfl
        | none => rfl

theorem finalize_run (E : Env) (s : RegState) : (finalize E).run s = (.ok (), OpenMethod.finalize E s) := rfl

end Prog

/-! ## Operations -/

theorem OpResult.of_ok {α : Type} {f : α → OpResult} {r : Res α} {s s' : RegState} {o : OpResult} (h : (OpResult.of f r >>= fun o => Res.ok (o, s)) = .ok (o, s')) : OpResult.of f r = .ok o ∧ s' = s := by
  rw [Res.bind_eq_ok] at h
  obtain ⟨o', h1, h2⟩ := h
  simp only [Res.ok.injEq, Prod.mk.injEq] at h2
  exact ⟨h2.1 ▸ h1, h2.2.symm⟩

theorem Op.readOnly (E : Env) {op : Op} (h : ¬ op.Writes) : (op.prog E).ReadOnly := by
  cases op with
  | call m args types => exact (Prog.call_ro _ _ _ _).map _
  | make t => exact (Prog.makeVirtualPtr_ro _ _).map _
  | hasNext m v => exact (Prog.hasNext_ro _ _).map _
  | next v types => exact (Prog.callNext_ro _ _).map _
  | init p => exact absurd trivial h
  | final => exact absurd trivial h

/-- The program of an operation, executed alone, does what the operation does. -/
theorem Op.run_exec {E : Env} {s s' : RegState} {op : Op} {o : OpResult} (h : op.exec E s = .ok (o, s')) : (op.prog E).run s = (.ok o, s') := by
  cases op with
  | call m args types =>
    obtain ⟨h1, rfl⟩ := OpResult.of_ok h
    show ((Prog.call E.cfg m args types).map OpResult.entered).run s' = _
    rw [Prog.run_map, (Prog.call_ro E.cfg m args types).run]
    cases hs : s'.ss m.id with
    | some ss => rw [Prog.call_cost E.cfg hs, Cost.call_snd, h1]
    | none =>
      have h2 : OpenMethod.call E.cfg s' m args types = (OpenMethod.requireInitialized E.cfg s' >>= fun _ => Res.ub) := by
        unfold OpenMethod.call
        rw [hs]; rfl
      rw [h2] at h1
      have h3 : ((Prog.call E.cfg m args types).cost s').2 = (OpenMethod.requireInitialized E.cfg s' >>= fun _ => ((Prog.resolve m.id m.arity m.params (args.map (Prog.argPtr E.cfg)) >>= fun f => Prog.done (enter f types)).cost s').2) := by
        show ((Prog.requireInitialized E.cfg >>= fun _ => _).cost s').2 = _
        rw [Prog.cost_bind s' (Prog.requireInitialized_ro E.cfg), Prog.requireInitialized_cost, Cost.bind_snd, Cost.requireInitialized_snd]
      rw [h3]
      cases hr : OpenMethod.requireInitialized E.cfg s' with
      | ok u => rw [hr] at h1; cases h1
      | err e => rw [hr] at h1; rw [← h1]; rfl
      | ub => rw [hr] at h1; cases h1
  | make t =>
    obtain ⟨h1, rfl⟩ := OpResult.of_ok h
    show ((Prog.makeVirtualPtr E.cfg t).map OpResult.boxed).run s' = _
    rw [Prog.run_map, (Prog.makeVirtualPtr_ro E.cfg t).run, Prog.makeVirtualPtr_cost, Cost.makeVirtualPtr_snd, h1]
  | hasNext m v =>
    obtain ⟨rfl, rfl⟩ := Prod.mk.inj (Res.ok.inj h)
    show ((Prog.hasNext m v).map OpResult.bool).run s = _
    rw [Prog.run_map, Prog.hasNext_run]; rfl
  | next v types =>
    obtain ⟨h1, rfl⟩ := OpResult.of_ok h
    show ((Prog.callNext v types).map OpResult.entered).run s' = _
    rw [Prog.run_map, Prog.callNext_run, h1]
  | init p =>
    have h := Res.bind_eq_ok.1 h
    obtain ⟨r, hr, h⟩ := h
    obtain ⟨rfl, rfl⟩ := Prod.mk.inj (Res.ok.inj h)
    show ((Prog.init E p).map OpResult.report).run s = _
    have := Prog.init_run E p s
    rw [hr] at this
    rw [Prog.run_map, this]; rfl
  | final =>
    obtain ⟨rfl, rfl⟩ := Prod.mk.inj (Res.ok.inj h)
    rfl

theorem Op.exec_ne_err {E : Env} {s : RegState} (op : Op) (e : Err) : op.exec E s ≠ .err e := by
  have key : ∀ {α : Type} (f : α → OpResult) (r : Res α), (OpResult.of f r >>= fun o => Res.ok (o, s)) ≠ .err e := by
    intro α f r
    cases r <;> exact nofun
  cases op with
  | call m args types => exact key _ _
  | make t => exact key _ _
  | hasNext m v => exact nofun
  | next v types => exact key _ _
  | init p =>
    have := Prog.init_run E p s
    show (initRegistry E p s >>= _) ≠ _
    cases hr : initRegistry E p s with
    | ok r => exact nofun
    | err e' => rw [hr] at this; exact this.elim
    | ub => exact nofun
  | final => exact nofun

/-! ## The invariant -/

variable {E : RegId → Env} {strategy : Nat → Strategy} {mem : RegId → RegState} {S S' : Sys}

/-- What a thread sees is what it would see alone, in registries it uses. -/
structure ThreadOk (E : RegId → Env) (st : Strategy) (mem : RegId → RegState) (cur : RegId → RegState) (t : Thread) (m : RegId → RegState) : Prop where
  alone : Alone E st mem t.past m
  idle : ∀ past r op, st past = some (r, op) → (∀ p, t.cur ≠ some (r, p)) → cur r = m r
  busy : ∀ r p, t.cur = some (r, p) → ∃ op, st t.past = some (r, op) ∧ p.run (cur r) = (op.prog (E r)).run (m r) ∧ (¬ op.Writes → p.ReadOnly)

def Sys.Ok (E : RegId → Env) (strategy : Nat → Strategy) (mem : RegId → RegState) (S : Sys) : Prop :=
  ∀ i, ∃ m, ThreadOk E (strategy i) mem S.mem (S.threads i) m

theorem start_ok : (Sys.start mem).Ok E strategy mem := fun _ => ⟨mem, .nil, fun _ _ _ _ _ => rfl, fun _ _ h => nomatch h⟩

/-- A step that does not change the memory, for the other threads. -/
theorem ok_of_same (h : S.Ok E strategy mem) {i : Nat} {t : Thread} (hi : ∃ m, ThreadOk E (strategy i) mem S.mem t m) :
    ({ S with threads := Function.update S.threads i t } : Sys).Ok E strategy mem := by
  intro j
  by_cases hj : j = i
  · subst hj; simpa using hi
  · simpa [Function.update_of_ne hj] using h j

theorem step_ok (hsep : Separate strategy) (hw : ∀ i, ¬ Wrong E (strategy i) mem) (h : S.Ok E strategy mem) {i : Nat} (hs : S.step E strategy i = some S') : S'.Ok E strategy mem := by
  obtain ⟨m, hm⟩ := h i
  unfold Sys.step at hs
  dsimp only at hs
  split at hs
  · rename_i hc
    split at hs
    · cases hs
    · rename_i r op hst
      obtain rfl := Option.some.inj hs
      refine ok_of_same h ⟨m, hm.alone, fun past r' op' h' _ => hm.idle past r' op' h' (fun p => by rw [hc]; exact nofun), fun r' p hp => ?_⟩
      obtain ⟨rfl, rfl⟩ := Prod.mk.inj (Option.some.inj hp)
      exact ⟨op, hst, by rw [hm.idle _ _ _ hst (fun p => by rw [hc]; exact nofun)], Op.readOnly _⟩
  · rename_i r o hc
    obtain rfl := Option.some.inj hs
    obtain ⟨op, hst, hrun, _⟩ := hm.busy _ _ hc
    have hex : op.exec (E r) (m r) = .ok (o, S.mem r) := by
      cases he : op.exec (E r) (m r) with
      | ub => exact absurd ⟨_, _, _, _, hm.alone, hst, he⟩ (hw i)
      | err e => exact absurd he (op.exec_ne_err e)
      | ok x =>
        obtain ⟨o', s'⟩ := x
        rw [Op.run_exec he] at hrun
        simp only [Prog.run, Prod.mk.injEq, Res.ok.injEq] at hrun
        rw [hrun.1, hrun.2]
    refine ok_of_same h ⟨Function.update m r (S.mem r), .op hm.alone hst hex, fun past r' op' h' _ => ?_, fun _ _ hp => nomatch hp⟩
    by_cases hr : r' = r
    · subst hr; simp
    · rw [Function.update_of_ne hr]
      refine hm.idle past r' op' h' fun p hp => hr ?_
      rw [hc] at hp
      exact (Prod.mk.inj (Option.some.inj hp)).1.symm
  · cases hs
  · rename_i r l k hc
    obtain rfl := Option.some.inj hs
    obtain ⟨op, hst, hrun, hro⟩ := hm.busy _ _ hc
    refine ok_of_same h ⟨m, hm.alone, fun past r' op' h' hn => hm.idle past r' op' h' fun p hp => ?_, fun r' p hp => ?_⟩
    · rw [hc] at hp
      obtain ⟨rfl, _⟩ := Prod.mk.inj (Option.some.inj hp)
      exact hn _ rfl
    · obtain ⟨rfl, rfl⟩ := Prod.mk.inj (Option.some.inj hp)
      exact ⟨op, hst, hrun, fun hn => hro hn _⟩
  · rename_i r k hc
    obtain rfl := Option.some.inj hs
    obtain ⟨op, hst, hrun, hro⟩ := hm.busy _ _ hc
    refine ok_of_same h ⟨m, hm.alone, fun past r' op' h' hn => hm.idle past r' op' h' fun p hp => ?_, fun r' p hp => ?_⟩
    · rw [hc] at hp
      obtain ⟨rfl, _⟩ := Prod.mk.inj (Option.some.inj hp)
      exact hn _ rfl
    · obtain ⟨rfl, rfl⟩ := Prod.mk.inj (Option.some.inj hp)
      exact ⟨op, hst, hrun, fun hn => (hro hn).elim⟩
  · rename_i r w k hc
    obtain rfl := Option.some.inj hs
    obtain ⟨op, hst, hrun, hro⟩ := hm.busy _ _ hc
    have hwr : op.Writes := by
      by_contra hn
      exact (hro hn).elim
    intro j
    by_cases hj : j = i
    · subst hj
      refine ⟨m, ?_⟩
      simp only [Function.update_self]
      refine ⟨hm.alone, fun past r' op' h' hn => ?_, fun r' p hp => ?_⟩
      · have hr : r' ≠ r := fun e => hn k (by rw [e])
        rw [Function.update_of_ne hr]
        refine hm.idle past r' op' h' fun p hp => hr ?_
        rw [hc] at hp
        exact (Prod.mk.inj (Option.some.inj hp)).1.symm
      · obtain ⟨rfl, rfl⟩ := Prod.mk.inj (Option.some.inj hp)
        exact ⟨op, hst, by rw [Function.update_self]; exact hrun, fun hn => absurd hwr hn⟩
    · obtain ⟨mj, hmj⟩ := h j
      have hr : ∀ past r' op', strategy j past = some (r', op') → r' ≠ r := by
        rintro past r' op' h' rfl
        exact hsep i j (Ne.symm hj) _ _ _ hst hwr _ _ h'
      refine ⟨mj, ?_⟩
      simp only [Function.update_of_ne hj]
      refine ⟨hmj.alone, fun past r' op' h' hn => ?_, fun r' p hp => ?_⟩
      · rw [Function.update_of_ne (hr _ _ _ h')]
        exact hmj.idle past r' op' h' hn
      · obtain ⟨op', h1, h2, h3⟩ := hmj.busy _ _ hp
        exact ⟨op', h1, by rw [Function.update_of_ne (hr _ _ _ h1)]; exact h2, h3⟩

theorem reaches_ok (hsep : Separate strategy) (hw : ∀ i, ¬ Wrong E (strategy i) mem) (h : Interleaves E strategy (Sys.start mem) S) : S.Ok E strategy mem := by
  induction h with
  | refl => exact start_ok
  | step _ hs ih => exact step_ok hsep hw ih hs

theorem Sys.Ok.no_race (hsep : Separate strategy) (h : S.Ok E strategy mem) : ¬ S.Race := by
  rintro ⟨i, j, r, p, q, x, hij, hi, hj, hx, _⟩
  obtain ⟨m, hm⟩ := h i
  obtain ⟨m', hm'⟩ := h j
  obtain ⟨op, h1, _, h3⟩ := hm.busy _ _ hi
  obtain ⟨op', h1', _, _⟩ := hm'.busy _ _ hj
  refine hsep i j hij _ _ _ h1 ?_ _ _ h1'
  by_contra hn
  cases p with
  | write w k => exact (h3 hn).elim
  | _ => exact hx.elim

/-- A thread that is not finished can continue. -/
theorem Sys.Ok.progress (hw : ∀ i, ¬ Wrong E (strategy i) mem) (h : S.Ok E strategy mem) (i : Nat) (hn : S.step E strategy i = none) :
    (S.threads i).cur = none ∧ strategy i (S.threads i).past = none := by
  obtain ⟨m, hm⟩ := h i
  unfold Sys.step at hn
  dsimp only at hn
  split at hn
  · rename_i hc
    split at hn
    · exact ⟨hc, by assumption⟩
    · cases hn
  · cases hn
  · rename_i r x hx hc
    exfalso
    obtain ⟨op, hst, hrun, _⟩ := hm.busy _ _ hc
    cases he : op.exec (E r) (m r) with
    | ub => exact hw i ⟨_, _, _, _, hm.alone, hst, he⟩
    | err e => exact op.exec_ne_err e he
    | ok y =>
      rw [Op.run_exec he] at hrun
      simp only [Prog.run, Prod.mk.injEq] at hrun
      exact hx y.1 hrun.1
  · cases hn
  · cases hn
  · cases hn

end OpenMethod
