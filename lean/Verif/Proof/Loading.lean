import Verif.SpecLoading
import Verif.Proof.Threads

/-! # Loading libraries while other threads run -/

namespace OpenMethod

theorem Home.Same.refl (a : Home) (x : LPart) : a.Same a x := by cases x <;> rfl

theorem Home.Same.symm {a b : Home} {x : LPart} (h : a.Same b x) : b.Same a x := by cases x <;> exact Eq.symm h

theorem Home.Same.trans {a b c : Home} {x : LPart} (h : a.Same b x) (h' : b.Same c x) : a.Same c x := by cases x <;> exact Eq.trans h h'

/-! ## The accesses of a program -/

/-- All accesses of the program, whatever it reads, are to these variables. -/
def Prog.Within (U W : LPart → Prop) : Prog OpResult → Prop
  | .done r => ∀ o e, r = .ok o → o.err? = some e → U .handler
  | .load _ k => U .tables ∧ ∀ v, (k v).Within U W
  | .inspect k => U .tables ∧ ∀ s, (k s).Within U W
  | .write _ k => U .tables ∧ W .tables ∧ k.Within U W

def LProg.Within (U W : LPart → Prop) : LProg → Prop
  | .done _ => True
  | .stuck => True
  | .tables p => p.Within U W
  | .lists k => U .lists ∧ ∀ l, (k l).Within U W
  | .link _ k => U .lists ∧ W .lists ∧ k.Within U W
  | .handler k => U .handler ∧ ∀ f, (k f).Within U W
  | .install _ k => U .handler ∧ W .handler ∧ k.Within U W

theorem Prog.ReadOnly.within {U W : LPart → Prop} {p : Prog OpResult} (h : p.ReadOnly) (ht : U .tables) (hh : U .handler) : p.Within U W := by
  induction p with
  | done r => exact fun _ _ _ _ => hh
  | load l k ih => exact ⟨ht, fun v => ih v (h v)⟩
  | inspect k => exact h.elim
  | write w k => exact h.elim

theorem Prog.within_all {U W : LPart → Prop} (ht : U .tables) (hw : W .tables) (hh : U .handler) (p : Prog OpResult) : p.Within U W := by
  induction p with
  | done r => exact fun _ _ _ _ => hh
  | load l k ih => exact ⟨ht, ih⟩
  | inspect k ih => exact ⟨ht, ih⟩
  | write w k ih => exact ⟨ht, hw, ih⟩

theorem Prog.writes_within {U W : LPart → Prop} (ht : U .tables) (hw : W .tables) (ws : List Write) :
    ((Prog.writes ws (.done (.ok ()))).map fun _ => OpResult.done).Within U W := by
  induction ws with
  | nil =>
    intro o e ho he
    obtain rfl := Res.ok.inj ho
    cases he
  | cons w ws ih => exact ⟨ht, hw, ih⟩

theorem LOp.within (L : Setting) (op : LOp) {U W : LPart → Prop} (hu : ∀ x ∈ op.uses, U x) (hw : ∀ x ∈ op.alters, W x) : (op.prog L).Within U W := by
  cases op with
  | use op h =>
    exact (Op.readOnly L.env (by cases op <;> first | exact id | cases h)).within (hu _ (by simp [LOp.uses])) (hu _ (by simp [LOp.uses]))
  | init =>
    refine ⟨hu _ (by simp [LOp.uses]), fun l => ?_⟩
    dsimp only
    split
    · exact Prog.within_all (hu _ (by simp [LOp.uses])) (hw _ (by simp [LOp.alters])) (hu _ (by simp [LOp.uses])) _
    · trivial
  | final =>
    show ((Prog.finalize L.env).map _).Within U W
    exact ⟨hu _ (by simp [LOp.uses]), fun s => Prog.writes_within (hu _ (by simp [LOp.uses])) (hw _ (by simp [LOp.alters])) _⟩
  | register e =>
    refine ⟨hu _ (by simp [LOp.uses]), fun l => ?_⟩
    dsimp only
    split
    · exact ⟨hu _ (by simp [LOp.uses]), hw _ (by simp [LOp.alters]), trivial⟩
    · trivial
  | setHandler f => exact ⟨hu _ (by simp [LOp.uses]), fun g => ⟨hu _ (by simp [LOp.uses]), hw _ (by simp [LOp.alters]), trivial⟩⟩

variable {U W : LPart → Prop} {p p' : LProg} {h h' h1 : Home}

/-- A step changes only what it may change. -/
theorem LProg.step_frame (hp : p.Within U W) (hs : p.step h = some (p', h')) {x : LPart} (hx : ¬ W x) : h'.Same h x := by
  unfold LProg.step at hs
  split at hs
  · cases hs
  · cases hs
  · split at hs <;> (obtain ⟨rfl, rfl⟩ := Prod.mk.inj (Option.some.inj hs); exact .refl _ _)
  · obtain ⟨rfl, rfl⟩ := Prod.mk.inj (Option.some.inj hs); exact .refl _ _
  · obtain ⟨rfl, rfl⟩ := Prod.mk.inj (Option.some.inj hs); exact .refl _ _
  · obtain ⟨rfl, rfl⟩ := Prod.mk.inj (Option.some.inj hs); exact .refl _ _
  · obtain ⟨rfl, rfl⟩ := Prod.mk.inj (Option.some.inj hs)
    cases x <;> first | rfl | exact absurd hp.2.1 hx
  · obtain ⟨rfl, rfl⟩ := Prod.mk.inj (Option.some.inj hs); exact .refl _ _
  · obtain ⟨rfl, rfl⟩ := Prod.mk.inj (Option.some.inj hs)
    cases x <;> first | rfl | exact absurd hp.2.1 hx
  · obtain ⟨rfl, rfl⟩ := Prod.mk.inj (Option.some.inj hs); exact .refl _ _
  · obtain ⟨rfl, rfl⟩ := Prod.mk.inj (Option.some.inj hs)
    cases x <;> first | rfl | exact absurd hp.2.1 hx

theorem LProg.step_within (hp : p.Within U W) (hs : p.step h = some (p', h')) : p'.Within U W := by
  unfold LProg.step at hs
  split at hs
  · cases hs
  · cases hs
  · split at hs
    · rename_i he
      obtain ⟨rfl, rfl⟩ := Prod.mk.inj (Option.some.inj hs)
      exact ⟨hp _ _ rfl he, fun _ => trivial⟩
    · obtain ⟨rfl, rfl⟩ := Prod.mk.inj (Option.some.inj hs); trivial
  · obtain ⟨rfl, rfl⟩ := Prod.mk.inj (Option.some.inj hs); trivial
  · obtain ⟨rfl, rfl⟩ := Prod.mk.inj (Option.some.inj hs); exact hp.2 _
  · obtain ⟨rfl, rfl⟩ := Prod.mk.inj (Option.some.inj hs); exact hp.2 _
  · obtain ⟨rfl, rfl⟩ := Prod.mk.inj (Option.some.inj hs); exact hp.2.2
  · obtain ⟨rfl, rfl⟩ := Prod.mk.inj (Option.some.inj hs); exact hp.2 _
  · obtain ⟨rfl, rfl⟩ := Prod.mk.inj (Option.some.inj hs); exact hp.2.2
  · obtain ⟨rfl, rfl⟩ := Prod.mk.inj (Option.some.inj hs); exact hp.2 _
  · obtain ⟨rfl, rfl⟩ := Prod.mk.inj (Option.some.inj hs); exact hp.2.2

/-- A step depends only on what the program uses. -/
theorem LProg.step_local (hp : p.Within U W) (hs : p.step h = some (p', h')) (he : ∀ x, U x → h.Same h1 x) :
    ∃ h1', p.step h1 = some (p', h1') ∧ ∀ x, U x → h'.Same h1' x := by
  unfold LProg.step at hs
  split at hs
  · cases hs
  · cases hs
  · rename_i o
    split at hs <;> rename_i ho
    · obtain ⟨rfl, rfl⟩ := Prod.mk.inj (Option.some.inj hs)
      exact ⟨h1, by simp only [LProg.step, ho], he⟩
    · obtain ⟨rfl, rfl⟩ := Prod.mk.inj (Option.some.inj hs)
      exact ⟨h1, by simp only [LProg.step, ho], he⟩
  · rename_i r hr
    obtain ⟨rfl, rfl⟩ := Prod.mk.inj (Option.some.inj hs)
    refine ⟨h1, ?_, he⟩
    cases r with
    | ok o => exact absurd rfl (hr o)
    | err e => rfl
    | ub => rfl
  · obtain ⟨rfl, rfl⟩ := Prod.mk.inj (Option.some.inj hs)
    have : h.tables = h1.tables := he .tables hp.1
    exact ⟨h1, by rw [this]; rfl, he⟩
  · obtain ⟨rfl, rfl⟩ := Prod.mk.inj (Option.some.inj hs)
    have : h.tables = h1.tables := he .tables hp.1
    exact ⟨h1, by rw [this]; rfl, he⟩
  · rename_i w k
    obtain ⟨rfl, rfl⟩ := Prod.mk.inj (Option.some.inj hs)
    have : h.tables = h1.tables := he .tables hp.1
    refine ⟨_, rfl, fun x hx => ?_⟩
    cases x with
    | tables => exact congrArg (fun s => Write.apply s w) this
    | lists => exact he .lists hx
    | handler => exact he .handler hx
  · obtain ⟨rfl, rfl⟩ := Prod.mk.inj (Option.some.inj hs)
    have : h.lists = h1.lists := he .lists hp.1
    exact ⟨h1, by rw [this]; rfl, he⟩
  · obtain ⟨rfl, rfl⟩ := Prod.mk.inj (Option.some.inj hs)
    refine ⟨_, rfl, fun x hx => ?_⟩
    cases x with
    | tables => exact he .tables hx
    | lists => rfl
    | handler => exact he .handler hx
  · obtain ⟨rfl, rfl⟩ := Prod.mk.inj (Option.some.inj hs)
    have : h.handler = h1.handler := he .handler hp.1
    exact ⟨h1, by rw [this]; rfl, he⟩
  · obtain ⟨rfl, rfl⟩ := Prod.mk.inj (Option.some.inj hs)
    refine ⟨_, rfl, fun x hx => ?_⟩
    cases x with
    | tables => exact he .tables hx
    | lists => exact he .lists hx
    | handler => rfl

theorem LProg.reads_within (hp : p.Within U W) {x : LPart} (h : p.reads x) : U x := by
  unfold LProg.reads at h
  split at h
  · subst h; exact hp.1
  · subst h; exact hp.1
  · subst h; exact hp.1
  · subst h; exact hp.1
  · exact h.elim

theorem LProg.changes_within (hp : p.Within U W) {x : LPart} (h : p.changes x) : U x ∧ W x := by
  unfold LProg.changes at h
  split at h
  · subst h; exact ⟨hp.1, hp.2.1⟩
  · subst h; exact ⟨hp.1, hp.2.1⟩
  · subst h; exact ⟨hp.1, hp.2.1⟩
  · exact h.elim

/-! ## Executing a program alone -/

/-- What ends the accesses to the tables. -/
def LProg.finish (h : Home) (x : Res OpResult × RegState) : Option (LResult × Home) :=
  match x.1 with
  | .ok o => some (.of h.handler o, { h with tables := x.2 })
  | _ => none

def LProg.run (h : Home) : LProg → Option (LResult × Home)
  | .done o => some (o, h)
  | .stuck => none
  | .tables p => LProg.finish h (p.run h.tables)
  | .lists k => (k h.lists).run h
  | .link l k => k.run { h with lists := l }
  | .handler k => (k h.handler).run h
  | .install f k => k.run { h with handler := f }

theorem LProg.step_run (hs : p.step h = some (p', h')) : p.run h = p'.run h' := by
  unfold LProg.step at hs
  split at hs
  · cases hs
  · cases hs
  · rename_i o
    cases o with
    | error e => obtain ⟨rfl, rfl⟩ := Prod.mk.inj (Option.some.inj hs); rfl
    | report r =>
      cases r with
      | error e => obtain ⟨rfl, rfl⟩ := Prod.mk.inj (Option.some.inj hs); rfl
      | ok r => obtain ⟨rfl, rfl⟩ := Prod.mk.inj (Option.some.inj hs); rfl
    | _ => obtain ⟨rfl, rfl⟩ := Prod.mk.inj (Option.some.inj hs); rfl
  · rename_i r hr
    obtain ⟨rfl, rfl⟩ := Prod.mk.inj (Option.some.inj hs)
    cases r with
    | ok o => exact absurd rfl (hr o)
    | err e => rfl
    | ub => rfl
  all_goals (obtain ⟨rfl, rfl⟩ := Prod.mk.inj (Option.some.inj hs); rfl)

theorem LOp.exec_ne_err {L : Setting} (op : LOp) (e : Err) : op.exec L h ≠ .err e := by
  cases op with
  | use op _ =>
    show (op.exec L.env h.tables >>= _) ≠ _
    cases hr : op.exec L.env h.tables with
    | err e' => exact absurd hr (Op.exec_ne_err _ _)
    | ok x => exact nofun
    | ub => exact nofun
  | init =>
    unfold LOp.exec
    cases h.lists.program false L.decls L.rtti L.fuel L.now with
    | none => exact nofun
    | some p =>
      show ((Op.init p).exec L.env h.tables >>= _) ≠ _
      cases hr : (Op.init p).exec L.env h.tables with
      | err e' => exact absurd hr (Op.exec_ne_err _ _)
      | ok x => exact nofun
      | ub => exact nofun
  | final => exact nofun
  | register ev =>
    unfold LOp.exec
    dsimp only
    split <;> exact nofun
  | setHandler f => exact nofun

theorem LOp.run_exec {L : Setting} {op : LOp} {o : LResult} (he : op.exec L h = .ok (o, h')) : (op.prog L).run h = some (o, h') := by
  cases op with
  | use op _ =>
    obtain ⟨x, hx, hy⟩ := Res.bind_eq_ok.1 he
    show LProg.finish h ((op.prog L.env).run h.tables) = _
    rw [Op.run_exec (o := x.1) (s' := x.2) hx]
    exact congrArg some (Res.ok.inj hy)
  | init =>
    obtain ⟨p, hp, he⟩ := Res.bind_eq_ok.1 he
    obtain ⟨x, hx, hy⟩ := Res.bind_eq_ok.1 he
    have hp : h.lists.program false L.decls L.rtti L.fuel L.now = some p := by
      cases hq : h.lists.program false L.decls L.rtti L.fuel L.now with
      | none => rw [hq] at hp; cases hp
      | some q => rw [hq] at hp; exact congrArg some (Res.ok.inj hp)
    show LProg.run h (match h.lists.program false L.decls L.rtti L.fuel L.now with
      | some p => .tables ((Op.init p).prog L.env)
      | none => .stuck) = _
    rw [hp]
    show LProg.finish h (((Op.init p).prog L.env).run h.tables) = _
    rw [Op.run_exec (o := x.1) (s' := x.2) hx]
    exact congrArg some (Res.ok.inj hy)
  | final =>
    have : (Op.final.prog L.env).run h.tables = (.ok .done, finalize L.env h.tables) := Op.run_exec (by rfl)
    show LProg.finish h ((Op.final.prog L.env).run h.tables) = _
    rw [this]
    exact congrArg some (Res.ok.inj he)
  | register ev =>
    show LProg.run h (match h.lists.step false L.now ev with
      | .ok l' => .link l' (.done .registered)
      | _ => .stuck) = _
    unfold LOp.exec at he
    dsimp only at he
    split at he
    · rename_i l hl
      rw [hl]
      exact congrArg some (Res.ok.inj he)
    · cases he
  | setHandler f => exact congrArg some (Res.ok.inj he)

/-! ## The invariant -/

variable {L : RegId → Setting} {strategy : Nat → LStrategy} {mem : RegId → Home} {S S' : LSys}

/-- What a thread uses. -/
def LUses (st : LStrategy) (r : RegId) (x : LPart) : Prop := ∃ past op, st past = some (r, op) ∧ x ∈ op.uses

/-- What a thread changes. -/
def LAlters (st : LStrategy) (r : RegId) (x : LPart) : Prop := ∃ past op, st past = some (r, op) ∧ x ∈ op.alters

/-- A thread, in a memory `m` that only it changed. -/
structure LThreadOk (L : RegId → Setting) (st : LStrategy) (mem : RegId → Home) (cur m : RegId → Home) (t : LThread) : Prop where
  agree : ∀ r x, LUses st r x → (cur r).Same (m r) x
  idle : t.cur = none → LAlone L st mem t.past m
  busy : ∀ r p, t.cur = some (r, p) → p.Within (LUses st r) (LAlters st r) ∧ ∃ m0 op, LAlone L st mem t.past m0 ∧ st t.past = some (r, op) ∧
    (op.prog (L r)).run (m0 r) = p.run (m r) ∧ ∀ r', r' ≠ r → m r' = m0 r'

theorem lstart_ok (i : Nat) : LThreadOk L (strategy i) mem (LSys.start mem).mem mem ((LSys.start mem).threads i) where
  agree _ _ _ := .refl _ _
  idle _ := .nil
  busy _ _ h := by cases h

/-- The steps of the thread itself. -/
theorem LThreadOk.step {st : LStrategy} {cur cur' m : RegId → Home} {t t' : LThread} (hk : LThreadOk L st mem cur m t) (hw : ¬ LWrong L st mem)
    (hs : t.step L st cur = some (cur', t')) : ∃ m', LThreadOk L st mem cur' m' t' := by
  unfold LThread.step at hs
  split at hs
  · rename_i hc
    split at hs
    · rename_i r op ho
      obtain ⟨rfl, rfl⟩ := Prod.mk.inj (Option.some.inj hs)
      refine ⟨m, hk.agree, fun h => by (cases h), fun r' p hp => ?_⟩
      obtain ⟨rfl, rfl⟩ := Prod.mk.inj (Option.some.inj hp)
      exact ⟨LOp.within _ _ (fun x hx => ⟨_, _, ho, hx⟩) (fun x hx => ⟨_, _, ho, hx⟩), m, op, hk.idle hc, ho, rfl, fun _ _ => rfl⟩
    · cases hs
  · rename_i r o hc
    obtain ⟨rfl, rfl⟩ := Prod.mk.inj (Option.some.inj hs)
    refine ⟨m, hk.agree, fun _ => ?_, fun r' p hp => by cases hp⟩
    obtain ⟨-, m0, op, ha, ho, hr, hm⟩ := hk.busy _ _ hc
    have he : op.exec (L r) (m0 r) = .ok (o, m r) := by
      cases hx : op.exec (L r) (m0 r) with
      | ok x =>
        have h1 := LOp.run_exec (o := x.1) (h' := x.2) hx
        rw [hr] at h1
        exact congrArg Res.ok (Option.some.inj h1).symm
      | err e => exact absurd hx (LOp.exec_ne_err _ _)
      | ub => exact absurd ⟨_, _, _, _, ha, ho, hx⟩ hw
    have hmm : m = Function.update m0 r (m r) := by
      funext r'
      by_cases h : r' = r
      · subst h; rw [Function.update_self]
      · rw [Function.update_of_ne h]; exact hm _ h
    show LAlone L st mem (t.past ++ [o]) m
    rw [hmm]
    exact .op ha ho he
  · rename_i r p _ hc
    obtain ⟨⟨p', h'⟩, hp, hq⟩ := Option.map_eq_some_iff.1 hs
    obtain ⟨rfl, rfl⟩ := Prod.mk.inj hq
    obtain ⟨hin, m0, op, ha, ho, hr, hm⟩ := hk.busy _ _ hc
    obtain ⟨h1, hp1, hag⟩ := LProg.step_local hin hp (hk.agree r)
    refine ⟨Function.update m r h1, fun r' x hx => ?_, fun h => by (cases h), fun r' q hq => ?_⟩
    · by_cases h : r' = r
      · subst h
        rw [Function.update_self, Function.update_self]
        exact hag x hx
      · rw [Function.update_of_ne h, Function.update_of_ne h]
        exact hk.agree _ _ hx
    · obtain ⟨rfl, rfl⟩ := Prod.mk.inj (Option.some.inj hq)
      refine ⟨LProg.step_within hin hp, m0, op, ha, ho, ?_, fun r' h => ?_⟩
      · rw [Function.update_self, hr]
        exact LProg.step_run hp1
      · rw [Function.update_of_ne h]; exact hm _ h

/-- What a step of a thread leaves unchanged. -/
theorem LThreadOk.frame {st : LStrategy} {cur cur' m : RegId → Home} {t t' : LThread} (hk : LThreadOk L st mem cur m t)
    (hs : t.step L st cur = some (cur', t')) {r : RegId} {x : LPart} (hx : ¬ LAlters st r x) : (cur' r).Same (cur r) x := by
  unfold LThread.step at hs
  split at hs
  · split at hs
    · obtain ⟨rfl, rfl⟩ := Prod.mk.inj (Option.some.inj hs); exact .refl _ _
    · cases hs
  · obtain ⟨rfl, rfl⟩ := Prod.mk.inj (Option.some.inj hs); exact .refl _ _
  · rename_i r' p _ hc
    obtain ⟨⟨p', h'⟩, hp, hq⟩ := Option.map_eq_some_iff.1 hs
    obtain ⟨rfl, rfl⟩ := Prod.mk.inj hq
    by_cases h : r = r'
    · subst h
      rw [Function.update_self]
      exact LProg.step_frame (hk.busy _ _ hc).1 hp hx
    · rw [Function.update_of_ne h]; exact .refl _ _

theorem lstep_ok (hsep : LSeparate strategy) (hw : ∀ i, ¬ LWrong L (strategy i) mem) {m : Nat → RegId → Home}
    (hk : ∀ i, LThreadOk L (strategy i) mem S.mem (m i) (S.threads i)) {i : Nat} (hs : S.step L strategy i = some S') :
    ∃ m' : Nat → RegId → Home, ∀ j, LThreadOk L (strategy j) mem S'.mem (m' j) (S'.threads j) := by
  obtain ⟨⟨cur', t'⟩, ht, rfl⟩ := Option.map_eq_some_iff.1 hs
  obtain ⟨mi, hi⟩ := (hk i).step (hw i) ht
  refine ⟨Function.update m i mi, fun j => ?_⟩
  by_cases h : j = i
  · subst h
    dsimp only
    rw [Function.update_self, Function.update_self]
    exact hi
  · dsimp only
    rw [Function.update_of_ne h, Function.update_of_ne h]
    refine ⟨fun r x hx => ?_, (hk j).idle, (hk j).busy⟩
    have hna : ¬ LAlters (strategy i) r x := by
      rintro ⟨past, op, ho, hm⟩
      obtain ⟨past', op', ho', hm'⟩ := hx
      exact hsep i j (Ne.symm h) _ _ _ ho _ _ ho' x hm hm'
    exact ((hk i).frame ht hna).trans ((hk j).agree r x hx)

theorem linterleaves_ok (hsep : LSeparate strategy) (hw : ∀ i, ¬ LWrong L (strategy i) mem) (h : LInterleaves L strategy (LSys.start mem) S) :
    ∃ m : Nat → RegId → Home, ∀ i, LThreadOk L (strategy i) mem S.mem (m i) (S.threads i) := by
  induction h with
  | refl => exact ⟨fun _ => mem, lstart_ok⟩
  | step _ hs ih =>
    obtain ⟨m, hk⟩ := ih
    exact lstep_ok hsep hw hk hs

theorem LThreadOk.alone {st : LStrategy} {cur m : RegId → Home} {t : LThread} (hk : LThreadOk L st mem cur m t) : ∃ m', LAlone L st mem t.past m' := by
  cases hc : t.cur with
  | none => exact ⟨_, hk.idle hc⟩
  | some x =>
    obtain ⟨-, m0, _, ha, -⟩ := hk.busy x.1 x.2 hc
    exact ⟨_, ha⟩

theorem lno_race (hsep : LSeparate strategy) {m : Nat → RegId → Home} (hk : ∀ i, LThreadOk L (strategy i) mem S.mem (m i) (S.threads i)) : ¬ S.Race := by
  rintro ⟨i, j, r, p, q, x, hij, hp, hq, hc, hd⟩
  obtain ⟨-, past, op, ho, hm⟩ := LProg.changes_within ((hk i).busy _ _ hp).1 hc
  have hu : LUses (strategy j) r x := by
    rcases hd with hd | hd
    · exact (LProg.changes_within ((hk j).busy _ _ hq).1 hd).1
    · exact LProg.reads_within ((hk j).busy _ _ hq).1 hd
  obtain ⟨past', op', ho', hm'⟩ := hu
  exact hsep i j hij _ _ _ ho _ _ ho' x hm hm'

/-- No thread is stuck. -/
theorem LThreadOk.not_stuck {st : LStrategy} {cur m : RegId → Home} {t : LThread} (hk : LThreadOk L st mem cur m t) (hw : ¬ LWrong L st mem) {r : RegId} :
    t.cur ≠ some (r, .stuck) := by
  intro hc
  obtain ⟨-, m0, op, ha, ho, hr, -⟩ := hk.busy _ _ hc
  cases hx : op.exec (L r) (m0 r) with
  | ok x =>
    have h1 := LOp.run_exec (o := x.1) (h' := x.2) hx
    rw [hr] at h1
    cases h1
  | err e => exact absurd hx (LOp.exec_ne_err _ _)
  | ub => exact absurd ⟨_, _, _, _, ha, ho, hx⟩ hw

end OpenMethod
