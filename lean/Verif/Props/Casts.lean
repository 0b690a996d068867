import Verif.Proof.Casts
import Verif.Props.Statements

/-!
# C72: casts of virtual pointers
-/

namespace OpenMethod.Props

open Cpp Spec Hier

variable {E : Env} {p : Program} {s s' : RegState} {rep : Report} {T : CastTypes} {w w' : Ptrs} {n : Nat}

/-! ## Which casts the compiler accepts -/

theorem inherits_defined {H : Hier} {c d : Cls} (h : H.Inherits c d) : c = d ∨ H.Defined c := by
  rcases Relation.ReflTransGen.cases_head h with h | ⟨_, ⟨_, hb⟩, _⟩
  · exact .inl h
  · exact .inr hb.defined

theorem isBaseOf_iff' {H : Hier} (hw : H.WF) {c d : Cls} (hc : H.Defined c) : H.isBaseOf c d = true ↔ H.Inherits d c := by
  constructor
  · exact fun h => (isBaseOf_iff hw (defined_of_isBaseOf hw h)).1 h
  · intro h
    rcases inherits_defined h with rfl | hd
    · exact (isBaseOf_iff hw hc).2 h
    · exact (isBaseOf_iff hw hd).2 h

/-- The accepted casts are the permitted ones; except that a `std::unique_ptr` to a class that is not polymorphic can be cast only to a base, even if `static_cast` would do. -/
theorem C72_accepts {E : Cpp} {h h' : Held} {e : Elem} {c : Cat} (hw : E.hier.WF) (hd : E.hier.Defined h.elem.cls) :
    E.castType h e c = some h' ↔ h' = h.rebind e ∧ E.CastPermitted h e c ∧ ((∃ t, h = .smart .unique t) → E.HasDynamicCast h.elem.cls e.cls) := by
  have ho := optimalOk_iff (d := e.cls) hw hd
  have hy := dynamicOk_iff (d := e.cls) hw hd
  have hl : (E.HasStaticCast h.elem.cls e.cls ∨ E.HasDynamicCast h.elem.cls e.cls) ↔ E.optimalOk h.elem.cls e.cls = true := by
    rw [ho]; unfold HasStaticCast HasDynamicCast; tauto
  have hq : E.HasDynamicCast h.elem.cls e.cls ↔ E.dynamicOk h.elem.cls e.cls = true := by
    rw [hy]; unfold HasDynamicCast; tauto
  have hp : E.CastPermitted h e c ↔ (E.hier.Inherits e.cls h.elem.cls ∨ E.hier.Inherits h.elem.cls e.cls) ∧ (h.elem.const = true → e.const = true) ∧
      E.optimalOk h.elem.cls e.cls = true ∧ ∀ t, h = .smart .unique t → c = .rvalue := by
    rw [← hl]
    exact ⟨fun ⟨a, b, c, d⟩ => ⟨a, b, c, d⟩, fun ⟨a, b, c, d⟩ => ⟨a, b, c, d⟩⟩
  have hdo : E.dynamicOk h.elem.cls e.cls = true → E.optimalOk h.elem.cls e.cls = true := fun h => by simp [optimalOk, h]
  rw [hp, hq, ← isBaseOf_iff' hw hd, ← isBaseOf_iff hw hd]
  have hcond : ((E.hier.isBaseOf h.elem.cls e.cls || E.hier.isBaseOf e.cls h.elem.cls) && (!h.elem.const || e.const)) = true ↔
      (E.hier.isBaseOf h.elem.cls e.cls = true ∨ E.hier.isBaseOf e.cls h.elem.cls = true) ∧ (h.elem.const = true → e.const = true) := by
    rw [Bool.and_eq_true, Bool.or_eq_true]
    refine and_congr_right fun _ => ?_
    cases h.elem.const <;> simp
  unfold castType
  dsimp only
  split
  · next hc =>
    have hc := hcond.1 hc
    cases h with
    | plain t =>
      simp only [Option.ite_none_right_eq_some, Option.some.injEq, Held.rebind]
      constructor
      · rintro ⟨h1, rfl⟩; exact ⟨rfl, ⟨hc.1, hc.2, h1, nofun⟩, nofun⟩
      · rintro ⟨rfl, ⟨_, _, h1, _⟩, _⟩; exact ⟨h1, rfl⟩
    | smart k t =>
      have hk : (E.smartCastOk (Held.smart k t).elem.cls e.cls k && (decide (k ≠ .unique) || decide (c = .rvalue))) = true ↔
          E.optimalOk (Held.smart k t).elem.cls e.cls = true ∧ (k = .unique → c = .rvalue) ∧ (k = .unique → E.dynamicOk (Held.smart k t).elem.cls e.cls = true) := by
        rw [Bool.and_eq_true, Bool.or_eq_true, decide_eq_true_eq, decide_eq_true_eq]
        cases k with
        | unique => exact ⟨fun ⟨h1, h2⟩ => ⟨hdo h1, fun hk => h2.resolve_left fun h => h hk, fun _ => h1⟩, fun ⟨_, h1, h2⟩ => ⟨h2 rfl, .inr (h1 rfl)⟩⟩
        | _ => exact ⟨fun ⟨h1, _⟩ => ⟨h1, nofun, nofun⟩, fun ⟨h1, _⟩ => ⟨h1, .inl nofun⟩⟩
      rw [Option.ite_none_right_eq_some, hk, Option.some.injEq]
      simp only [Held.rebind]
      constructor
      · rintro ⟨⟨h1, h2, h3⟩, rfl⟩
        exact ⟨rfl, ⟨hc.1, hc.2, h1, fun t ht => h2 (by cases ht; rfl)⟩, fun ⟨t, ht⟩ => h3 (by cases ht; rfl)⟩
      · rintro ⟨rfl, ⟨_, _, h1, h2⟩, h3⟩
        exact ⟨⟨h1, fun hk => h2 t (by rw [hk]), fun hk => h3 ⟨t, by rw [hk]⟩⟩, rfl⟩
  · next hc =>
    constructor
    · nofun
    · rintro ⟨_, ⟨h1, h2, _⟩, _⟩
      exact absurd (hcond.2 ⟨h1, h2⟩) hc

/-- A permitted cast that is rejected: of a `std::unique_ptr` to a class that is not polymorphic, to a derived class. That of a `std::shared_ptr` is accepted. -/
theorem C72_unique_refuted :
    (nonPolymorphic zoo).CastPermitted (.smart .unique ⟨0, false⟩) ⟨1, false⟩ .rvalue ∧ (nonPolymorphic zoo).castType (.smart .unique ⟨0, false⟩) ⟨1, false⟩ .rvalue = none ∧
    (nonPolymorphic zoo).castType (.smart .shared ⟨0, false⟩) ⟨1, false⟩ .rvalue = some (.smart .shared ⟨1, false⟩) :=
  ⟨⟨.inl zoo_derives.inherits, nofun, .inl (.inr zoo_static), fun _ _ => rfl⟩, by decide +kernel, by decide +kernel⟩

/-- The casts of arguments, in thunks, are some of these. -/
theorem C72_params {E : Cpp} {c d : Cls} {k : Smart} {b : Bool} :
    (E.castType (.plain ⟨c, false⟩) ⟨d, false⟩ (if b then .rvalue else .constLvalue)).isSome = (E.vptrCast b (.cls c) d).isSome ∧
    (E.castType (.smart k ⟨c, false⟩) ⟨d, false⟩ (if b then .rvalue else .constLvalue)).isSome = (E.vptrCast b (.smart k (.cls c)) d).isSome := by
  constructor
  · simp only [castType, vptrCast, Held.elem]
    by_cases h2 : (E.hier.isBaseOf c d || E.hier.isBaseOf d c) = true <;> by_cases h3 : E.optimalOk c d = true <;> simp_all
  · simp only [castType, vptrCast, Held.elem]
    by_cases h2 : (E.hier.isBaseOf c d || E.hier.isBaseOf d c) = true <;> by_cases h3 : E.smartCastOk c d k = true <;> cases k <;> cases b <;> simp_all

/-! ## Subobjects -/

theorem isPath_prefix {H : Hier} {ρ : Path} : ∀ {c : Cls} {t : Path}, ρ ≠ [] → H.IsPath c (ρ ++ t) → H.IsPath c ρ := by
  induction ρ with
  | nil => exact fun h => absurd rfl h
  | cons a ρ ih =>
    intro c t _ h
    cases ρ with
    | nil =>
      have := h.head
      obtain rfl := Option.some.inj this
      exact .self h.defined
    | cons b ρ =>
      cases h with
      | base hb h => exact .base hb (ih (by simp) h)

/-- A part of an object that contains one of its subobjects. -/
theorem container_subobject {H : Hier} {x d : Cls} {σ τ ρ : Path} (hσ : H.Subobject x σ) (hτ : τ.head? = some d) (h : container τ σ = some ρ) : H.Subobject x ρ ∧ OfClass ρ d := by
  simp only [container] at h
  split at h
  · next hh =>
    rw [← Option.some.inj h]
    obtain ⟨h1, h2⟩ := hh
    rw [hτ] at h1
    refine ⟨?_, h1⟩
    have hne : σ.take (σ.length - τ.tail.length) ≠ [] := by intro h0; rw [h0] at h1; cases h1
    rw [← h2] at hσ
    rcases hσ with h | ⟨v, hv, h⟩
    · exact .inl (isPath_prefix hne h)
    · exact .inr ⟨v, hv, isPath_prefix hne h⟩
  · cases h

/-- Casts to a class that is not one of those of the object. -/
theorem optimalCast_fails {H : Hier} {x b d : Cls} {σ : Path} (hw : H.WF) (hσ : H.Subobject x σ) (hb : OfClass σ b) (hn : ¬ H.Inherits x d) (force : Bool) :
    H.optimalCast force x b d σ = if force = false ∧ (H.staticCast b d []).isSome then .ub else .ok none := by
  have hbd : H.only b d = none := by
    cases h : H.only b d with
    | none => rfl
    | some τ =>
      obtain ⟨⟨h1, h2⟩, _⟩ := (only_eq_some hw).1 h
      exact absurd ((hσ.sub hb h1).inherits (sub_ofClass hb h2)) hn
  have hocc : H.occ x d = [] := List.eq_nil_iff_forall_not_mem.2 fun τ hτ => hn (((mem_occ hw).1 hτ).1.inherits ((mem_occ hw).1 hτ).2)
  have hdyn : H.dynamicCast x b d σ = none := by
    have hx : H.only x d = none := by unfold only; rw [hocc]
    unfold dynamicCast
    rw [hbd, hocc]
    exact hx
  unfold optimalCast staticCast
  rw [hbd, hdyn]
  cases hdb : H.only d b with
  | none => cases force <;> simp
  | some τ =>
    by_cases hh : τ.head? = some d
    · have : container τ σ = none := by
        cases hc : container τ σ with
        | none => rfl
        | some ρ =>
          obtain ⟨h1, h2⟩ := container_subobject hσ hh hc
          exact absurd (h1.inherits h2) hn
      cases force <;> simp [hh, this, Res.ofOption]
    · cases force <;> simp [hh]

/-- Without repeated inheritance, the casts in the model of values are those of subobjects: the cast succeeds, fails, or is undefined in the same cases. `σ` is the subobject that the virtual pointer designates. -/
theorem C72_agrees {E : Cpp} {h : Held} {e : Elem} {x : Cls} {σ : Path} (o : Obj) (hw : E.hier.WF) (hx : E.hier.Defined x) (hr : E.hier.NoRepeat x) (hσ : E.hier.Subobject x σ)
    (hb : OfClass σ h.elem.cls) :
    match VirtualPtr.castObj { dynamic := E.castDynamic h e, isInstance := E.hier.isBaseOf e.cls x } h.kind (.to o) with
    | .ok (some (.to o')) => o' = o ∧ ∃ ρ, E.hier.optimalCast (h.kind = .unique) x h.elem.cls e.cls σ = .ok (some ρ) ∧ E.hier.Subobject x ρ ∧ OfClass ρ e.cls
    | .ok _ => E.hier.optimalCast (h.kind = .unique) x h.elem.cls e.cls σ = .ok none
    | _ => E.hier.optimalCast (h.kind = .unique) x h.elem.cls e.cls σ = .ub := by
  by_cases hi : E.hier.Inherits x e.cls
  · have hi' := (isBaseOf_iff hw hx).2 hi
    obtain ⟨ρ, h1, h2⟩ := hi.subobject hw hx
    have : VirtualPtr.castObj { dynamic := E.castDynamic h e, isInstance := E.hier.isBaseOf e.cls x } h.kind (.to o) = .ok (some (.to o)) := by
      rw [hi']; unfold VirtualPtr.castObj; simp
    rw [this]
    exact ⟨rfl, ρ, optimalCast_ok hw hr hσ hb h1 h2 _, h1, h2⟩
  · have hi' : E.hier.isBaseOf e.cls x = false := Bool.eq_false_iff.2 fun h => hi ((isBaseOf_iff hw hx).1 h)
    rw [hi', optimalCast_fails hw hσ hb hi]
    have hdyn : (decide (h.kind = .unique) = false ∧ (E.hier.staticCast h.elem.cls e.cls []).isSome = true) ↔ E.castDynamic h e = false := by
      unfold castDynamic staticOk
      cases h with
      | plain t => simp [Held.kind]
      | smart k t => cases k <;> simp [Held.kind]
    simp only [hdyn]
    cases hd : E.castDynamic h e with
    | false =>
      cases h with
      | plain t => rfl
      | smart k t => cases k <;> rfl
    | true =>
      cases h with
      | plain t => rfl
      | smart k t => cases k <;> rfl

/-! ## What casts do -/

/-- Each virtual pointer designates an object of its class, or of a derived class, and the v-table of the class of the object; or no object. -/
theorem cast_reach_typed (R : PtrReady E.cfg p s) (hf : T.Fits p) (hr : T.Reach E.cfg p s w) :
    ∀ k, Sound p s (w k) ∧ ∀ o, (w k).obj = .to o → T.Instance o (T.type k).elem.cls := by
  induction hr with
  | start => exact fun k => ⟨.inl ⟨rfl, nofun⟩, nofun⟩
  | @step w w' a n e _ hn ht h0 hrun ih =>
    cases a with
    | give st =>
      simp only [CastTypes.run, Option.map_eq_some_iff] at hrun
      obtain ⟨l, hl, hrun⟩ := hrun
      obtain ⟨w1, h1, ⟨h2, h3, h4⟩, h5⟩ := gives R hf.toFits okay_sound (fun k => (ih k).1) hn hl ht.2 h0
      rw [hrun] at h1
      obtain ⟨rfl, rfl⟩ := Prod.mk.inj (Res.ok.inj h1)
      have hi : ∀ {o}, st.operand.designated w = .to o → T.Instance o (T.type st.target).elem.cls := fun ho => gives_instance hf.toFits hl ht.2 (fun k => (ih k).2) ho
      intro k
      by_cases hk : k = st.target
      · subst hk
        exact ⟨h3, fun o ho => hi (h2.symm.trans ho)⟩
      · by_cases hkn : k = n
        · subst hkn
          rcases h5 with h5 | ⟨h5, h6⟩
          · rw [h5]; exact ih k
          · refine ⟨h6, fun o ho => ?_⟩
            rw [hn.2.2]
            exact hi (h5.symm.trans ho)
        · by_cases hm : st.operand = .vptr k ∧ st.cat = .rvalue ∧ ∃ q t, T.type st.target = .smart q t
          · rw [(h4 k hk hkn).1 hm]
            exact ⟨.inl ⟨rfl, nofun⟩, nofun⟩
          · rw [(h4 k hk hkn).2 hm]
            exact ih k
    | cast i j e c =>
      simp only [CastTypes.run, Option.ite_none_right_eq_some, Option.some.injEq] at hrun
      obtain ⟨ha, hrun⟩ := hrun
      have hti : (T.type i).elem = e := by rw [(castType_eq ha).1, Held.rebind_elem]
      obtain ⟨w1, r, h1, hg⟩ := cast_gives (cfg := E.cfg) hf (fun k => (ih k).1) (fun k => (ih k).2) ht h0
      rw [hrun] at h1
      obtain ⟨rfl, rfl⟩ := Prod.mk.inj (Res.ok.inj h1)
      have same : (∀ k, k ≠ i → w' k = w k) → (w' i).obj = .null → Sound p s (w' i) → ∀ k, Sound p s (w' k) ∧ ∀ o, (w' k).obj = .to o → T.Instance o (T.type k).elem.cls := by
        intro h1 h2 h3 k
        by_cases hk : k = i
        · subst hk; exact ⟨h3, fun o ho => by rw [h2] at ho; cases ho⟩
        · rw [h1 k hk]; exact ih k
      rcases (ih j).1 with ⟨hn, _⟩ | ⟨o, ho, hd⟩
      · obtain ⟨_, h1, h2, h3⟩ := hg.null hn
        exact same h3 h1 h2
      · have hobj := Sets.to_designated hd
        by_cases hI : T.Instance o e.cls
        · obtain ⟨_, h1, h2, h3, h4, h5⟩ := hg.instance' o hobj hI
          intro k
          by_cases hk : k = i
          · subst hk
            refine ⟨h2, fun o' ho' => ?_⟩
            rw [h1] at ho'
            obtain rfl := ObjPtr.to.inj ho'
            rw [hti]; exact hI
          · by_cases hkj : k = j
            · subst hkj
              by_cases hrel : T.Releases k c
              · rw [h3 hrel]
                exact ⟨.inl ⟨rfl, (ih k).1.vp⟩, nofun⟩
              · rw [h4 hrel]; exact ih k
            · rw [h5 k hk hkj]; exact ih k
        · obtain ⟨h1, h2⟩ := hg.failed o hobj hI
          by_cases hs : ∃ t, T.type j = .smart .shared t
          · obtain ⟨_, h1, h3, h4⟩ := h1 hs
            exact same h4 h1 h3
          · rw [(h2 hs).2]; exact ih

/-- C72 in full: accepted casts and statements have the documented effect, and virtual pointers remain consistent. -/
def C72 : Prop :=
  ∀ (E : Env) (T : CastTypes) (p : Program) (s s' : RegState) (rep : Report) (w : Ptrs) (a : Action) (n : Nat) (r : Res (Ptrs × VirtualPtr.End)),
    p.Good E.cfg → Initializes E p s s' rep → T.Fits p → T.Reach E.cfg p s' w → a.Spare T n → a.Typed T p w → T.run E.cfg s' w n a = some r →
    ∃ w' e, r = .ok (w', e) ∧ a.Effect (Consistent p s') T w w' n e

/-- C72, without casts that dereference null pointers (`NotNull`), and with `Sound` instead of `Consistent`: a virtual pointer without object may have a v-table pointer. Besides, all virtual pointers that
designate objects can be used in calls in their place. -/
theorem C72_partial (hp : p.Good E.cfg) (h : Initializes E p s s' rep) (hf : T.Fits p) (hr : T.Reach E.cfg p s' w) :
    (∀ (a : Action) (n : Nat) (r : Res (Ptrs × VirtualPtr.End)), a.Spare T n → a.Typed T p w → a.NotNull T w → T.run E.cfg s' w n a = some r →
      ∃ w' e, r = .ok (w', e) ∧ a.Effect (Sound p s') T w w' n e ∧ T.Reach E.cfg p s' w') ∧
    ∀ i, Sound p s' (w i) ∧ ∀ o, (w i).obj = .to o → T.Instance o (T.type i).elem.cls ∧ ∃ a, (w i).arg = .ok a ∧
      ∀ m as bs types, call E.cfg s' m (as ++ a :: bs) types = call E.cfg s' m (as ++ .obj o.type :: bs) types := by
  obtain ⟨c, img, R0, _⟩ := init_ready hp h
  have R := R0.ptr
  have hw := cast_reach_typed R hf hr
  refine ⟨fun a n r hn ht h0 hrun => ?_, fun i => ⟨(hw i).1, fun o ho => ⟨(hw i).2 o ho, ?_⟩⟩⟩
  · cases a with
    | give st =>
      have hrun' := hrun
      simp only [CastTypes.run, Option.map_eq_some_iff] at hrun'
      obtain ⟨l, hl, rfl⟩ := hrun'
      obtain ⟨w', h1, h2, _⟩ := gives R hf.toFits okay_sound (fun k => (hw k).1) hn hl ht.2 h0
      exact ⟨w', _, h1, ⟨rfl, h2⟩, hr.step hn ht h0 (hrun.trans (congrArg some h1))⟩
    | cast i j e c =>
      have hrun' := hrun
      simp only [CastTypes.run, Option.ite_none_right_eq_some, Option.some.injEq] at hrun'
      obtain ⟨_, rfl⟩ := hrun'
      obtain ⟨w', e', h1, h2⟩ := cast_gives (cfg := E.cfg) hf (fun k => (hw k).1) (fun k => (hw k).2) ht h0
      exact ⟨w', e', h1, h2, hr.step hn ht h0 (hrun.trans (congrArg some h1))⟩
  · obtain ⟨h1, hd⟩ := (hw i).1.object ho
    obtain ⟨a, ha, ea⟩ := hd.arg R h1
    exact ⟨a, ha, fun m as bs types => call_arg ea types⟩

/-! ## Null pointers, and pointers that have been moved from -/

def petCasts : CastTypes := { pets with cls := fun t => if t = 1 then 0 else if t = 2 then 1 else 2 }

theorem pets_known {d : Cls} (hd : Examples.zoo.HasId (pets.id d)) : d = 0 ∨ d = 1 := by
  by_cases h0 : d = 0
  · exact .inl h0
  · by_cases h1 : d = 1
    · exact .inr h1
    · obtain ⟨cr, h2, h3⟩ := hd
      have : pets.id d = 99 := by simp [pets, h0, h1]
      rw [this] at h3
      have : ∀ cr ∈ Examples.zoo.classes, cr.type ≠ 99 := by decide
      exact absurd h3 (this cr h2)

theorem petCasts_fits : petCasts.Fits Examples.zoo where
  toFits := pets_fits
  cls := fun d hd => by rcases pets_known hd with rfl | rfl <;> rfl
  known := fun d hd => by
    rcases pets_known hd with rfl | rfl
    · exact ⟨[], by simp [petCasts, pets, polymorphic, zoo]⟩
    · exact ⟨[(0, false)], by simp [petCasts, pets, polymorphic, zoo]⟩

/-- Actions are executed one after the other, as long as the compiler accepts them. -/
def CastTypes.runAll (T : CastTypes) (cfg : Config) (s : RegState) (w : Ptrs) (n : Nat) : List Action → Option (Res Ptrs)
  | [] => some (.ok w)
  | a :: l =>
    match T.run cfg s w n a with
    | some (.ok (w', _)) => CastTypes.runAll T cfg s w' n l
    | some (.err e) => some (.err e)
    | some .ub => some .ub
    | none => none

/-- Some variables after actions: the object, and whether the v-table pointer is null. -/
def petCast (T : CastTypes) (l : List Action) (is : List Nat) : Option (Option (Res (List (ObjPtr × Bool)))) :=
  (Examples.initOf (Examples.env Examples.mapped) Examples.zoo .init).map fun x =>
    (CastTypes.runAll T Examples.mapped x.1 (fun _ => .nul) 6 l).map fun r => r.bind fun w => .ok (is.map fun i => ((w i).obj, decide ((w i).vp = .null)))

/-- A null `virtual_ptr` is cast: the null pointer is dereferenced. -/
theorem C72_refuted : ¬ C72 := by
  intro h
  have hrun : (Examples.initOf (Examples.env Examples.mapped) Examples.zoo .init).map
      (fun x => (petCasts.run Examples.mapped x.1 (fun _ => { vp := .null, obj := .null }) 6 (.cast 1 0 ⟨1, false⟩ .lvalue)).map fun r => r.bind fun _ => Res.ok ()) = some (some .ub) := by decide +kernel
  rw [Option.map_eq_some_iff] at hrun
  obtain ⟨⟨s1, rep⟩, h1, hrun⟩ := hrun
  rw [Option.map_eq_some_iff] at hrun
  obtain ⟨r, hr, hrun⟩ := hrun
  obtain ⟨w', e, rfl, _⟩ := h (Examples.env Examples.mapped) petCasts Examples.zoo .init s1 rep _ (.cast 1 0 ⟨1, false⟩ .lvalue) 6 r
    (Examples.good (by decide +kernel)) (Examples.initOf_eq h1) petCasts_fits .start trivial ⟨by decide, nofun⟩ hr
  cases hrun

/-- `std::shared_ptr`s and `std::unique_ptr`s: the former can be null, the latter cannot. -/
theorem C72_null_refuted :
    petCast petCasts [.cast 3 2 ⟨1, false⟩ .lvalue, .cast 2 3 ⟨0, false⟩ .rvalue] [2, 3] = some (some (.ok [(.null, true), (.null, true)])) ∧
    petCast petCasts [.cast 5 4 ⟨1, false⟩ .rvalue] [5] = some (some .ub) := by decide +kernel

/-- A `std::unique_ptr` that has been moved by a cast leaves a virtual pointer with the v-table pointer of the object that it no longer has: it is not consistent. -/
theorem C72_moved_refuted :
    petCast petCasts [.give (.give .construct 5 (.smart .unique ⟨1, false⟩ (some rex)) .rvalue), .cast 4 5 ⟨0, false⟩ .rvalue] [4, 5] = some (some (.ok [(.to rex, false), (.null, false)])) := by
  decide +kernel

/-! ## The hypotheses are met -/

/-- Class 1 derives virtually from class 0: `static_cast` from 0 to 1 is not possible. -/
def virtualZoo : Hier := [(1, [(0, true)]), (0, [])]

def virtualCasts : CastTypes := { petCasts with cpp := { polymorphic virtualZoo with cpp20 := true } }

/-- An `Animal`. -/
def tom : Obj := ⟨9, 1⟩

/-- Casts to the base and back, of virtual pointers of all kinds; a `static_cast` is used. -/
example : petCast petCasts
    [.give (.give .construct 1 (.object 1 rex) .lvalue), .cast 0 1 ⟨0, false⟩ .constLvalue, .cast 7 0 ⟨1, false⟩ .lvalue,
     .give (.give .construct 3 (.smart .shared ⟨1, false⟩ (some fido)) .rvalue), .cast 2 3 ⟨0, false⟩ .lvalue, .cast 9 2 ⟨1, false⟩ .rvalue,
     .give (.give .construct 5 (.smart .unique ⟨1, false⟩ (some rex)) .rvalue), .cast 4 5 ⟨0, false⟩ .rvalue, .cast 11 4 ⟨1, false⟩ .rvalue] [0, 7, 2, 3, 9, 4, 11] =
    some (some (.ok [(.to rex, false), (.to rex, false), (.to fido, false), (.to fido, false), (.to fido, false), (.null, false), (.to rex, false)])) := by decide +kernel

/-- Casts that fail, as the `dynamic_cast` does: variable 1 keeps its value, and so does 4; 3 is null. -/
example : petCast virtualCasts
    [.give (.give .construct 0 (.object 0 tom) .lvalue), .cast 1 0 ⟨1, false⟩ .lvalue,
     .give (.give .construct 2 (.smart .shared ⟨0, false⟩ (some tom)) .rvalue), .cast 3 2 ⟨1, false⟩ .rvalue,
     .give (.give .construct 4 (.smart .unique ⟨0, false⟩ (some tom)) .rvalue), .cast 5 4 ⟨1, false⟩ .rvalue] [1, 2, 3, 4, 5] =
    some (some (.ok [(.null, true), (.to tom, false), (.null, false), (.to tom, false), (.null, true)])) := by decide +kernel

/-- With C++20, `std::shared_ptr`s are moved by casts. -/
example : petCast virtualCasts [.give (.give .construct 3 (.smart .shared ⟨1, false⟩ (some rex)) .rvalue), .cast 2 3 ⟨0, false⟩ .rvalue] [2, 3] =
    some (some (.ok [(.to rex, false), (.null, false)])) := by decide +kernel

/-- Rejected: casts that remove `const`, of a `std::unique_ptr` that is not moved, to an unrelated class. -/
example : petCasts.cpp.castType (.plain ⟨0, true⟩) ⟨1, false⟩ .lvalue = none ∧ petCasts.cpp.castType (.plain ⟨0, true⟩) ⟨1, true⟩ .lvalue = some (.plain ⟨1, true⟩) ∧
    petCasts.cpp.castType (.smart .unique ⟨0, false⟩) ⟨1, false⟩ .lvalue = none ∧ petCasts.cpp.castType (.plain ⟨0, false⟩) ⟨2, false⟩ .lvalue = none := by decide +kernel

theorem run_accepted {cfg : Config} {i j : Nat} {e : Elem} {c : Cat} (h : T.cpp.castType (T.type j) e c = some (T.type i)) :
    T.run cfg s w n (.cast i j e c) = some ((PtrOp.construct i (T.castSource j e c (w j).obj)).run (T.env cfg) s w) := if_pos h

/-- A state that is reached by a cast, and the cast back. -/
example : ∃ s' rep w, Initializes (Examples.env Examples.mapped) Examples.zoo .init s' rep ∧ petCasts.Reach Examples.mapped Examples.zoo s' w ∧ (w 0).obj = .to rex ∧ (w 7).obj = .to rex := by
  have hi : (Examples.initOf (Examples.env Examples.mapped) Examples.zoo .init).isSome = true := by decide +kernel
  obtain ⟨⟨s1, rep⟩, h1⟩ := Option.isSome_iff_exists.1 hi
  have hg : Examples.zoo.Good (Examples.env Examples.mapped).cfg := Examples.good (by decide +kernel)
  have hin : ∀ c, c = 0 ∨ c = 1 → petCasts.Instance rex c := fun c hc => (rex_suits hc).2
  obtain ⟨w1, _, _, ⟨_, h2, _⟩, hr1⟩ := (C72_partial hg (Examples.initOf_eq h1) petCasts_fits .start).1 (.give (.give .construct 1 (.object 1 rex) .lvalue)) 7 _
    ⟨by decide, by decide, rfl⟩ ⟨by simp [Statement.NotSelf, Statement.operand], rex_suits (.inr rfl)⟩ trivial rfl
  have h2 : (w1 1).obj = .to rex := h2
  obtain ⟨w2, _, _, hg2, hr2⟩ := (C72_partial hg (Examples.initOf_eq h1) petCasts_fits hr1).1 (.cast 0 1 ⟨0, false⟩ .lvalue) 7 _
    trivial ⟨by decide, fun o ho _ => by rw [h2] at ho; obtain rfl := ObjPtr.to.inj ho; exact hin 0 (.inl rfl)⟩ (fun h => by rw [h2] at h; cases h) (run_accepted (by decide +kernel))
  have h3 := (hg2.instance' rex h2 (hin 0 (.inl rfl))).2.1
  obtain ⟨w3, _, _, hg3, hr3⟩ := (C72_partial hg (Examples.initOf_eq h1) petCasts_fits hr2).1 (.cast 7 0 ⟨1, false⟩ .lvalue) 13 _
    trivial ⟨by decide, fun o ho _ => by rw [h3] at ho; obtain rfl := ObjPtr.to.inj ho; exact hin 1 (.inr rfl)⟩ (fun h => by rw [h3] at h; cases h) (run_accepted (by decide +kernel))
  obtain ⟨_, h4, _, _, h5, _⟩ := hg3.instance' rex h3 (hin 1 (.inr rfl))
  exact ⟨s1, rep, w3, Examples.initOf_eq h1, hr3, by rw [h5 (fun h => nomatch h.1)]; exact h3, h4⟩

end OpenMethod.Props
