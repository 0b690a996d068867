import Verif.SpecNull
import Verif.Props.Thunk

/-! # C92: null arguments -/

namespace OpenMethod.Props

open Spec Examples

variable {H : Hier} {p : Program} {s : RegState} {m : MethodInfo} {o o' : OverriderInfo} {as : List Passed} {types : List TypeId}

theorem static_iff (hw : H.WF) {b d : Cls} : (H.staticCast b d []).isSome = true ↔ Static H b d := by
  unfold Hier.staticCast Static
  cases h1 : H.only b d with
  | some τ =>
    simp only [Option.isSome_some, true_iff]
    exact .inl ⟨τ, (Hier.only_eq_some hw).1 h1⟩
  | none =>
    have hn : ¬ H.Unambiguous b d := by
      rintro ⟨τ, hτ⟩
      rw [(Hier.only_eq_some hw).2 hτ] at h1
      cases h1
    cases h2 : H.only d b with
    | none =>
      simp only [Option.isSome_none, Bool.false_eq_true, false_iff]
      rintro (h | ⟨τ, h3, h4, -⟩)
      · exact hn h
      · rw [(Hier.only_eq_some hw).2 ⟨h3, h4⟩] at h2
        cases h2
    | some τ =>
      have h3 := (Hier.only_eq_some hw).1 h2
      dsimp only
      split
      · rename_i hh
        simp only [Option.isSome_some, true_iff]
        exact .inr ⟨τ, h3.1, h3.2, hh⟩
      · rename_i hh
        simp only [Option.isSome_none, Bool.false_eq_true, false_iff]
        rintro (h | ⟨τ', h4, h5, h6⟩)
        · exact hn h
        · obtain rfl := h3.2 τ' h4.1 h4.2
          exact hh h6

theorem castNull_iff (hw : H.WF) {b d : Cls} {pass : Pass} : castNull H b d pass = true ↔ NullSafe H b d pass := by
  cases pass with
  | ref => exact ⟨nofun, nofun⟩
  | pointer => exact ⟨fun _ => .pointer, fun _ => rfl⟩
  | shared => exact ⟨fun _ => .shared, fun _ => rfl⟩
  | sharedRef => exact ⟨fun _ => .sharedRef, fun _ => rfl⟩
  | intrusive => exact ⟨fun h => .intrusive ((static_iff hw).1 h), fun h => by cases h with | intrusive h => exact (static_iff hw).2 h⟩
  | unique => exact ⟨nofun, nofun⟩

open Classical in
theorem castArgs_null (hw : H.WF) (ti : TypeId → Cls) : ∀ {bs ds : List Cls} {as : List Passed}, Nulls as →
    castArgs H ti bs ds as = if AllNullSafe H bs ds as then .ok (some as) else .ub := by
  intro bs ds as hn
  induction as generalizing bs ds with
  | nil =>
    cases bs <;> cases ds <;> simp only [castArgs]
    · rw [if_pos .nil]
    all_goals (rw [if_neg]; intro h; cases h)
  | cons a as ih =>
    have hn' : Nulls as := fun x hx => hn x (List.mem_cons_of_mem _ hx)
    cases a with
    | other v =>
      simp only [castArgs]
      rw [ih hn']
      by_cases h : AllNullSafe H bs ds as
      · rw [if_pos h, if_pos (.other v h)]; rfl
      · rw [if_neg h, if_neg]; · rfl
        intro h'; cases h'; contradiction
    | virt a =>
      have ha : a.ref = none := hn a List.mem_cons_self
      cases bs with
      | nil => simp only [castArgs]; rw [if_neg]; intro h; cases h
      | cons b bs =>
        cases ds with
        | nil => simp only [castArgs]; rw [if_neg]; intro h; cases h
        | cons d ds =>
          simp only [castArgs, castArg, ha]
          by_cases hs : NullSafe H b d a.pass
          · rw [if_pos ((castNull_iff hw).2 hs), Res.ok_bind]
            dsimp only
            rw [ih hn']
            by_cases h : AllNullSafe H bs ds as
            · rw [if_pos h, if_pos (.virt hs h)]; rfl
            · rw [if_neg h, if_neg]; · rfl
              intro h'; cases h'; contradiction
          · rw [if_neg (fun h => hs ((castNull_iff hw).1 h)), if_neg]; · rfl
            intro h'; cases h'; contradiction

theorem nulls_convert {ds bs : List Cls} {as bs' : List Passed} (h : convertArgs H ds bs as = some bs') (hn : Nulls as) : bs' = as := by
  induction as generalizing ds bs bs' with
  | nil =>
    cases ds <;> cases bs <;> simp only [convertArgs, Option.some.injEq, reduceCtorEq] at h
    exact h.symm
  | cons a as ih =>
    have hn' : Nulls as := fun x hx => hn x (List.mem_cons_of_mem _ hx)
    cases a with
    | other v =>
      simp only [convertArgs, Option.bind_eq_bind, Option.bind_eq_some_iff, Option.some.injEq] at h
      obtain ⟨r, h1, rfl⟩ := h
      rw [ih h1 hn']
    | virt a =>
      have ha : a.ref = none := hn a List.mem_cons_self
      cases ds with
      | nil => simp [convertArgs] at h
      | cons d ds =>
        cases bs with
        | nil => simp [convertArgs] at h
        | cons b bs =>
          simp only [convertArgs, convertArg, Option.bind_eq_bind, Option.bind_eq_some_iff, Option.some.injEq] at h
          obtain ⟨a', ⟨τ, -, rfl⟩, r, h1, rfl⟩ := h
          rw [ih h1 hn', ha]
          obtain ⟨pass, vp, ref⟩ := a
          obtain rfl : ref = none := ha
          rfl

/-- C92: an overrider calls `next` with null pointers as its virtual arguments, and `next` is an overrider. It gets null pointers of its own types if this can be done without an object: for
pointers and `shared_ptr`s; for `intrusive_ptr`s, if its class does not inherit virtually from that of the method; otherwise, and for references and `unique_ptr`s, the behaviour is undefined. -/
theorem C92 (hD : p.Distinct) (hw : H.WF) (hm : m ∈ p.methods) (ho : o' ∈ m.overriders) (hs : s.next o.next = some (.user o'.pf)) (hn : Nulls as) {r : Res Entered}
    (h : callNext H p.rtti s m o as types = some r) :
    (AllNullSafe H (m.vp.map p.rtti.ti) (o'.vp.map p.rtti.ti) as → r = .ok (.entered o' as)) ∧
    (¬ AllNullSafe H (m.vp.map p.rtti.ti) (o'.vp.map p.rtti.ti) as → r = .ub) := by
  simp only [callNext, Option.bind_eq_bind, Option.bind_eq_some_iff, Option.some.injEq] at h
  obtain ⟨bs, hbs, rfl⟩ := h
  obtain rfl := nulls_convert hbs hn
  rw [hs, Res.ofOption_some, Res.ok_bind, show enter (.user o'.pf) types = .ok o'.pf from rfl, Res.ok_bind, enterThunk_eq hD hm ho]
  unfold thunk
  rw [castArgs_null hw _ hn]
  refine ⟨fun ha => ?_, fun ha => ?_⟩
  · rw [if_pos ha]; rfl
  · rw [if_neg ha]; rfl

/-- A call with a null argument for a `virtual_` parameter has undefined behaviour: the object is needed to find the overrider. -/
theorem C92_call {cfg : Config} {r : Rtti} {args : List Passed} {pass : Pass} (h : .virt ⟨pass, none, none⟩ ∈ args) : callThunk cfg H r s m args types = .ub := by
  have key : argsOf args = .ub := by
    induction args with
    | nil => cases h
    | cons a as ih =>
      unfold argsOf
      rcases List.mem_cons.1 h with rfl | h
      · rfl
      · have : ∀ x : Passed, x.arg = .ub ∨ ∃ y, x.arg = .ok y := by
          intro x
          unfold Passed.arg
          split
          · exact .inr ⟨_, rfl⟩
          · split
            · exact .inr ⟨_, rfl⟩
            · exact .inr ⟨_, rfl⟩
            · exact .inl rfl
        rcases this a with e | ⟨y, e⟩
        · rw [e]; rfl
        · rw [e, ih h]; rfl
  unfold callThunk
  rw [key]; rfl

/-! ## Concrete calls -/

/-- The overrider for class 4, of the method of `Props.Thunk`, calls `next` with a null argument, after `initialize`. -/
def nullNext (pass : Pass) (H : Hier) : Option (Res Entered) :=
  (initOf (env hashed) greetProg .init).bind fun x => callNext H greetProg.rtti x.1 greet (ov [4] 11) [.virt ⟨pass, none, none⟩] []

/-- Class 1 is a virtual base of class 2: the result depends on the kind of pointer. -/
example : nullNext .pointer vdiamond = some (.ok (.entered (ov [2] 10) [.virt ⟨.pointer, none, none⟩])) ∧ nullNext .shared vdiamond = some (.ok (.entered (ov [2] 10) [.virt ⟨.shared, none, none⟩])) ∧
    nullNext .intrusive vdiamond = some .ub ∧ nullNext .unique vdiamond = some .ub := by decide +kernel

/-- A hierarchy without virtual bases. -/
def chainHier : Hier := [(4, [(2, false)]), (2, [(1, false)]), (1, [])]

example : nullNext .intrusive chainHier = some (.ok (.entered (ov [2] 10) [.virt ⟨.intrusive, none, none⟩])) ∧ nullNext .unique chainHier = some .ub := by decide +kernel

/-- A null `shared_ptr` is passed on, a null `intrusive_ptr` is dereferenced. -/
theorem C92_differs : ∃ s, s.next (ov [4] 11).next = some (.user 10) ∧
    callNext vdiamond greetProg.rtti s greet (ov [4] 11) [.virt ⟨.shared, none, none⟩] [] = some (.ok (.entered (ov [2] 10) [.virt ⟨.shared, none, none⟩])) ∧
    callNext vdiamond greetProg.rtti s greet (ov [4] 11) [.virt ⟨.intrusive, none, none⟩] [] = some .ub := by
  have h : (initOf (env hashed) greetProg .init).map (fun x => (x.1.next (ov [4] 11).next, callNext vdiamond greetProg.rtti x.1 greet (ov [4] 11) [.virt ⟨.shared, none, none⟩] [],
      callNext vdiamond greetProg.rtti x.1 greet (ov [4] 11) [.virt ⟨.intrusive, none, none⟩] [])) =
      some (some (.user 10), some (.ok (.entered (ov [2] 10) [.virt ⟨.shared, none, none⟩])), some .ub) := by decide +kernel
  obtain ⟨x, -, hx⟩ := Option.map_eq_some_iff.1 h
  obtain ⟨h1, h2⟩ := Prod.mk.inj hx
  obtain ⟨h2, h3⟩ := Prod.mk.inj h2
  exact ⟨x.1, h1, h2, h3⟩

/-- C92 applies to these calls. -/
example (pass : Pass) : ∃ s r, callNext vdiamond greetProg.rtti s greet (ov [4] 11) [.virt ⟨pass, none, none⟩] [] = some r ∧
    (NullSafe vdiamond 1 2 pass → r = .ok (.entered (ov [2] 10) [.virt ⟨pass, none, none⟩])) := by
  obtain ⟨s, hs, -, -⟩ := C92_differs
  have hc : convertArgs vdiamond [4] [1] [.virt ⟨pass, none, none⟩] = some [.virt ⟨pass, none, none⟩] := by cases pass <;> decide +kernel
  have : ∃ r, callNext vdiamond greetProg.rtti s greet (ov [4] 11) [.virt ⟨pass, none, none⟩] [] = some r := by
    unfold callNext
    rw [show (ov [4] 11).vp.map greetProg.rtti.ti = [4] by decide +kernel, show greet.vp.map greetProg.rtti.ti = [1] by decide +kernel, hc]
    exact ⟨_, rfl⟩
  obtain ⟨r, hr⟩ := this
  refine ⟨s, r, hr, fun hn => ?_⟩
  refine (C92 (p := greetProg) (o' := ov [2] 10) ⟨by decide, by decide⟩ (wf_of (by decide)) (by decide) (by decide) hs (fun a ha => ?_) hr).1 ?_
  · cases List.mem_singleton.1 ha; rfl
  · rw [show (ov [2] 10).vp.map greetProg.rtti.ti = [2] by decide +kernel, show greet.vp.map greetProg.rtti.ti = [1] by decide +kernel]
    exact .virt hn .nil

end OpenMethod.Props
