import Verif.Proof.Subobjects
import Verif.Proof.VirtualPtr
import Verif.Proof.Covariant
import Verif.Proof.Next
import Verif.Proof.History

/-! # Thunks -/

namespace OpenMethod

open Spec

variable {H : Hier} {p : Program} {s : RegState} {b d x : Cls} {a : VArg} {bs ds xs : List Cls} {ks : List Bool} {as args : List Passed}

/-- A class derives, according to the records, from classes of which its objects have subobjects. -/
theorem Hier.Describes.derives (hH : H.Describes p) (hx : H.Defined x) (h : Derives p x d) : ∃ ρ, H.Subobject x ρ ∧ Hier.OfClass ρ d := by
  induction h with
  | refl => exact ⟨[x], .inl (.self hx), rfl⟩
  | @tail c b _ hb ih =>
    obtain ⟨ρ, h1, h2⟩ := ih
    obtain ⟨cr, hcr, rfl, t, ht, rfl, _⟩ := hb
    obtain ⟨τ, ⟨h3, h4⟩, _⟩ := hH.bases cr hcr t ht
    exact ⟨_, h1.sub h2 h3, Hier.sub_ofClass h2 h4⟩

theorem Refers.cast (hH : H.Describes p) (hr : H.NoRepeat x) (h : Refers H p s b a x) (hd : Derives p x d) :
    ∃ a', castArg H p.rtti.ti b d a = .ok (some a') ∧ Refers H p s d a' x ∧ SamePassed (.virt a) (.virt a') := by
  obtain ⟨pass, vp, ref⟩ := a
  obtain ⟨r, h0, h1, rfl, h2, h3, h4⟩ := h
  simp only at h0
  subst h0
  have hdef : H.Defined (p.rtti.ti r.obj.type) := by
    obtain ⟨cr, hcr, e⟩ := h1
    rw [← e]
    exact hH.defined cr hcr
  obtain ⟨ρ, h5, h6⟩ := hH.derives hdef hd
  refine ⟨⟨pass, vp, some { r with path := ρ }⟩, ?_, ⟨_, rfl, h1, rfl, h5, h6, h4⟩, .virt rfl⟩
  unfold castArg
  simp only [Hier.optimalCast_ok hH.wf hr h2 h3 h5 h6]

/-- Casting the arguments. -/
theorem PassedFor.cast (hH : H.Describes p) (h : PassedFor H p s bs ks as xs) (hr : ∀ x ∈ xs, H.NoRepeat x) (hd : Accepts p ds xs) :
    ∃ as', castArgs H p.rtti.ti bs ds as = .ok (some as') ∧ PassedFor H p s ds ks as' xs ∧ List.Forall₂ SamePassed as as' := by
  induction h generalizing ds with
  | nil =>
    cases hd
    exact ⟨[], rfl, .nil, .nil⟩
  | @virt bs ks as xs b a x ha _ ih =>
    cases hd with
    | cons h1 h2 =>
      obtain ⟨a', e1, e2, e3⟩ := ha.cast hH (hr _ (by simp)) h1
      obtain ⟨as', e4, e5, e6⟩ := ih (fun x hx => hr x (List.mem_cons_of_mem _ hx)) h2
      refine ⟨.virt a' :: as', ?_, .virt e2 e5, .cons e3 e6⟩
      unfold castArgs
      rw [e1, Res.ok_bind]
      simp only
      rw [e4, Res.ok_bind]
      rfl
  | @other bs ks as xs v _ ih =>
    obtain ⟨as', e4, e5, e6⟩ := ih hr hd
    refine ⟨.other v :: as', ?_, .other v e5, .cons (.other v) e6⟩
    unfold castArgs
    rw [e4, Res.ok_bind]
    rfl

theorem PassedFor.thunk (hH : H.Describes p) {m : MethodInfo} {o : OverriderInfo} (h : PassedFor H p s (classesOf p m.vp) ks as xs)
    (hr : ∀ x ∈ xs, H.NoRepeat x) (ho : Applicable p o xs) :
    ∃ as', OpenMethod.thunk H p.rtti m o as = .ok (.entered o as') ∧ PassedFor H p s (classesOf p o.vp) ks as' xs ∧ List.Forall₂ SamePassed as as' := by
  obtain ⟨as', e1, e2, e3⟩ := h.cast hH hr ho
  refine ⟨as', ?_, e2, e3⟩
  unfold OpenMethod.thunk
  unfold classesOf at e1
  rw [e1, Res.ok_bind]

/-- The arguments of `next` are the same objects. -/
theorem PassedFor.convert (hH : H.Describes p) (h : PassedFor H p s ds ks as xs) {as' : List Passed} (hc : convertArgs H ds bs as = some as') :
    PassedFor H p s bs ks as' xs ∧ List.Forall₂ SamePassed as as' := by
  induction h generalizing bs as' with
  | nil =>
    cases bs with
    | nil =>
      unfold convertArgs at hc
      obtain rfl := Option.some.inj hc
      exact ⟨.nil, .nil⟩
    | cons b bs => simp [convertArgs] at hc
  | @virt ds ks as xs d a x ha _ ih =>
    cases bs with
    | nil => simp [convertArgs] at hc
    | cons b bs =>
      simp only [convertArgs, convertArg, Option.bind_eq_bind, Option.bind_eq_some_iff, Option.some.injEq] at hc
      obtain ⟨a', ⟨τ, hτ, rfl⟩, as'', e, rfl⟩ := hc
      obtain ⟨e1, e2⟩ := ih e
      obtain ⟨⟨h1, h2⟩, _⟩ := (Hier.only_eq_some hH.wf).1 hτ
      obtain ⟨pass, vp, ref⟩ := a
      obtain ⟨r, h3, h4, h5, h6, h7, h8⟩ := ha
      simp only at h3
      subst h3
      exact ⟨.virt ⟨_, rfl, h4, h5, h6.sub h7 h1, Hier.sub_ofClass h7 h2, h8⟩ e1, .cons (.virt rfl) e2⟩
  | @other ds ks as xs v _ ih =>
    simp only [convertArgs, Option.bind_eq_bind, Option.bind_eq_some_iff, Option.some.injEq] at hc
    obtain ⟨as'', e, rfl⟩ := hc
    obtain ⟨e1, e2⟩ := ih e
    exact ⟨.other v e1, .cons (.other v) e2⟩

theorem SamePassed.trans {a b c : Passed} (h : SamePassed a b) (h' : SamePassed b c) : SamePassed a c := by
  cases h with
  | other v => exact h'
  | virt e =>
    cases h' with
    | virt e' => exact .virt (e.trans e')

theorem samePassed_trans {as bs cs : List Passed} (h : List.Forall₂ SamePassed as bs) (h' : List.Forall₂ SamePassed bs cs) : List.Forall₂ SamePassed as cs := by
  induction h generalizing cs with
  | nil => exact h'
  | cons h1 _ ih =>
    cases h' with
    | cons h2 h3 => exact .cons (h1.trans h2) (ih h3)

/-! ## Calls -/

variable {E : Env} {rep : Report} {gen : Nat} {c : Compiled} {img : Image} {m : MethodInfo} {types : List TypeId}

theorem Ready.passed (R : Ready E p rep gen c img s) (h : PassedFor H p s bs ks as xs) :
    ∃ args, argsOf as = .ok args ∧ ArgsFor (img.ptr gen) ks (args.map (OpenMethod.argPtr E.cfg s)) xs := by
  induction h with
  | nil => exact ⟨[], rfl, .nil⟩
  | @virt bs ks as xs b a x ha _ ih =>
    obtain ⟨args, e1, e2⟩ := ih
    obtain ⟨pass, vp, ref⟩ := a
    obtain ⟨r, h3, h4, rfl, _, _, h8⟩ := ha
    simp only at h3
    subst h3
    have : ∃ a, Passed.arg (.virt ⟨pass, vp, some r⟩) = .ok a ∧ OpenMethod.argPtr E.cfg s a = .ok (img.ptr gen (p.rtti.ti r.obj.type)) := by
      cases vp with
      | none => exact ⟨_, rfl, R.argPtr h4⟩
      | some v =>
        obtain ⟨a, e3, e4⟩ := (h8 v rfl).arg R.ptr h4
        rw [R.argPtr h4] at e4
        have e3 := Res.ok.inj e3
        subst e3
        exact ⟨_, rfl, e4⟩
    obtain ⟨a, e3, e4⟩ := this
    refine ⟨a :: args, ?_, ?_⟩
    · unfold argsOf
      rw [e3, Res.ok_bind, e1, Res.ok_bind]
    · rw [List.map_cons, e4]
      exact .virt _ e2
  | @other bs ks as xs v _ ih =>
    obtain ⟨args, e1, e2⟩ := ih
    refine ⟨.obj noType :: args, ?_, ?_⟩
    · unfold argsOf
      rw [show Passed.arg (.other v) = .ok (.obj noType) from rfl, Res.ok_bind, e1, Res.ok_bind]
    · exact .other _ e2

theorem PassedFor.registered (h : PassedFor H p s bs ks as xs) : ∀ x ∈ xs, Registered p x := by
  induction h with
  | nil => simp
  | virt ha _ ih =>
    obtain ⟨r, _, ⟨cr, hcr, e⟩, rfl, _⟩ := ha
    rw [List.forall_mem_cons]
    exact ⟨⟨cr, hcr, by rw [e]⟩, ih⟩
  | other _ _ ih => exact ih

/-- A call under `CallTo` enters an applicable overrider, or is reported as an error. -/
theorem call_enters {n : Bool} {pl : Platform} (hv : p.Valid) (h : install pl n p gen = .ok (rep, img)) {args : List (Res Ptr)}
    (hc : CallTo p gen img m args xs) (types : List TypeId) :
    (∃ arity ts, callMethod gen img m args types = .err (.noOverrider arity ts) ∨ callMethod gen img m args types = .err (.ambiguousCall arity ts)) ∨
    ∃ o ∈ m.overriders, Applicable p o xs ∧ callMethod gen img m args types = .ok o.pf := by
  cases n with
  | true =>
    obtain ⟨left, os, h1, h2, h3⟩ := call_idx hv h hc types
    have S := survIdx_surv (p := p) m (appIdx p m xs)
    rw [h3]
    unfold resultFor
    rw [if_pos rfl]
    have hl := congrArg List.getLast? h2
    rw [List.getLast?_map, List.getLast?_map] at hl
    split
    · exact .inl ⟨_, _, .inl rfl⟩
    · rename_i o ho
      rw [ho, Option.map_some] at hl
      obtain ⟨i, hi, hio⟩ := Option.map_eq_some_iff.1 hl
      obtain ⟨o', ho', hA⟩ := mem_appIdx.1 (S.sub.subset ((remainL_sublist h1).subset (List.mem_of_getLast? hi)))
      rw [hio] at ho'
      obtain rfl := Option.some.inj ho'
      exact .inr ⟨o, List.mem_of_getElem? hio, hA, rfl⟩
  | false =>
    rw [call_ref hv h hc]
    cases hr : refCall p m xs types with
    | ok n =>
      obtain ⟨i, o, ho, hpf, hA, _⟩ := refCall_ok hr
      exact .inr ⟨o, List.mem_of_getElem? ho, hA, by rw [hpf]⟩
    | err e =>
      left
      unfold refCall resultOf at hr
      split at hr
      · obtain rfl := Res.err.inj hr; exact ⟨_, _, .inl rfl⟩
      · cases hr
      · obtain rfl := Res.err.inj hr; exact ⟨_, _, .inr rfl⟩
    | ub =>
      unfold refCall resultOf at hr
      split at hr <;> cases hr

theorem enterThunk_eq (hD : p.Distinct) (hm : m ∈ p.methods) {o : OverriderInfo} (ho : o ∈ m.overriders) (args : List Passed) :
    enterThunk H p.rtti m args o.pf = thunk H p.rtti m o args := by
  unfold enterThunk
  cases hf : m.overriders.find? (·.pf = o.pf) with
  | none =>
    rw [List.find?_eq_none] at hf
    exact absurd (by simp) (hf o ho)
  | some o' =>
    have h1 : o'.pf = o.pf := by simpa using List.find?_some hf
    obtain ⟨j, hj⟩ := List.getElem?_of_mem ho
    obtain ⟨j', hj'⟩ := List.getElem?_of_mem (List.mem_of_find?_eq_some hf)
    obtain ⟨_, _, rfl⟩ := hD.index hm hm hj' hj h1
    rfl

end OpenMethod
