import Verif.SpecCasts
import Verif.Proof.Statements
import Verif.Props.Params

/-! # Lemmas about casts of virtual pointers -/

namespace OpenMethod

open Cpp Props

variable {p : Program} {s : RegState} {cfg : Config} {w w' : Ptrs} {T : CastTypes}

theorem Sound.copy {x : VirtualPtr} (h : Sound p s x) : x.copy = .ok x := by
  rcases h with ⟨h1, h2⟩ | ⟨o, _, h⟩
  · obtain ⟨v, q⟩ := x
    dsimp only at h1 h2
    subst h1
    cases v with
    | indeterminate => exact absurd rfl h2
    | _ => rfl
  · exact h.copy

theorem okay_sound : Okay p s (Sound p s) := ⟨.inl ⟨rfl, nofun⟩, fun ho h => .inr ⟨_, ho, h⟩, fun h => h.copy⟩

theorem Sound.object {x : VirtualPtr} {o : Obj} (h : Sound p s x) (ho : x.obj = .to o) : p.HasId o.type ∧ Designates p s o x := by
  rcases h with ⟨h1, _⟩ | ⟨o', h1, h2⟩
  · rw [h1] at ho; cases ho
  · obtain rfl := ObjPtr.to.inj ((Sets.to_designated h2).symm.trans ho)
    exact ⟨h1, h2⟩

theorem Sound.vp {x : VirtualPtr} (h : Sound p s x) : x.vp ≠ .indeterminate := by
  rcases h with ⟨_, h⟩ | ⟨o, _, b, q, rfl, _⟩
  · exact h
  · nofun

theorem castDynamic_iff (hw : T.cpp.hier.WF) {h : Held} {e : Elem} : T.cpp.castDynamic h e = false ↔ T.cpp.UsesStaticCast h e := by
  unfold castDynamic UsesStaticCast HasStaticCast
  rw [← staticOk_iff hw]
  split
  · simp
  · next hu => simp only [Bool.not_eq_false', iff_and_self]; exact fun _ t ht => hu t ht

/-- The class of an object tells whether a cast succeeds. -/
theorem instance_iff (hf : T.Fits p) {o : Obj} {c d : Cls} (ho : p.HasId o.type) (hi : T.Instance o c) :
    T.cpp.hier.isBaseOf d (T.cls o.type) = true ↔ T.Instance o d := by
  obtain ⟨k, hk, _⟩ := hi
  have hc : T.cls o.type = k := by rw [← hk]; exact hf.cls k (hk ▸ ho)
  rw [hc, isBaseOf_iff hf.wf (hf.known k (hk ▸ ho))]
  constructor
  · exact fun h => ⟨k, hk, h⟩
  · rintro ⟨k', hk', h⟩
    have : k' = k := by rw [← hf.cls k' (hk' ▸ ho), hk', ← hc]
    exact this ▸ h

theorem castType_eq {E : Cpp} {h h' : Held} {e : Elem} {c : Cat} (ha : E.castType h e c = some h') : h' = h.rebind e ∧ ∀ t, h = .smart .unique t → c = .rvalue := by
  unfold castType at ha
  dsimp only at ha
  split at ha
  · cases h with
    | plain t =>
      dsimp only at ha
      split at ha
      · exact ⟨(Option.some.inj ha).symm, nofun⟩
      · cases ha
    | smart k t =>
      dsimp only at ha
      split at ha
      · next hh =>
        refine ⟨(Option.some.inj ha).symm, fun t' ht => ?_⟩
        cases ht
        simp only [ne_eq, not_true_eq_false, decide_false, Bool.false_or, Bool.and_eq_true, decide_eq_true_eq] at hh
        exact hh.2
      · cases ha
  · cases ha

theorem Held.rebind_elem {h : Held} {e : Elem} : (h.rebind e).elem = e := by cases h <;> rfl

/-- A cast that throws, and one that does not. -/
theorem run_cast {X : PtrEnv} {i j : Nat} {h : VirtualPtr.Cast} {c : Prop} [Decidable c] {r : Option ObjPtr} (hc : (w j).copy = .ok (w j)) (hr : VirtualPtr.castObj h (X.kind j) (w j).obj = .ok r) :
    (PtrOp.construct i (if c then PtrSource.castMove j h else PtrSource.cast j h)).run X s w =
      match r with
      | none => .ok (w, .badCast)
      | some q => .ok (Function.update (if c then Function.update w j (VirtualPtr.castSource X.cxx20 h (X.kind j) (w j)) else w) i { vp := (w j).vp, obj := q }, .returned) := by
  have hv : VirtualPtr.cast h (X.kind j) (w j) = .ok (r.map fun o => { vp := (w j).vp, obj := o }) := by
    simp [VirtualPtr.cast, hc, hr]
  split <;> (simp only [PtrOp.run, constructPtr, hv, Res.ok_bind]; cases r <;> rfl)

/-- Which `cast` is called. -/
theorem castSource_eq {j : Nat} {e : Elem} {c : Cat} {x : ObjPtr} :
    T.castSource j e c x = if (T.type j).kind.smart = true ∧ c = .rvalue then PtrSource.castMove j (T.how j e x) else PtrSource.cast j (T.how j e x) := by
  unfold CastTypes.castSource
  cases h : T.type j with
  | plain t => simp [Held.kind, PtrKind.smart]
  | smart k t => by_cases hc : c = .rvalue <;> simp [hc, Held.kind_smart]

/-- What happens to the source. -/
theorem source_eq {X : PtrEnv} {j : Nat} {h : VirtualPtr.Cast} {c : Prop} [Decidable c] (hn : c → h.isInstance = true → X.kind j = .unique ∨ X.kind j = .shared ∧ X.cxx20 = true → False) :
    (if c then Function.update w j (VirtualPtr.castSource X.cxx20 h (X.kind j) (w j)) else w) = w := by
  split
  · next hc =>
    have : VirtualPtr.castSource X.cxx20 h (X.kind j) (w j) = w j := by
      unfold VirtualPtr.castSource
      have := hn hc
      cases hk : X.kind j <;> cases hi : h.isInstance <;> cases hx : X.cxx20 <;> simp_all
    rw [this, Function.update_eq_self]
  · rfl

theorem kind_unique {h : Held} : h.kind = .unique ↔ ∃ t, h = .smart .unique t := by
  cases h with
  | plain t => simp [Held.kind]
  | smart k t => cases k <;> simp [Held.kind]

theorem kind_shared {h : Held} : h.kind = .shared ↔ ∃ t, h = .smart .shared t := by
  cases h with
  | plain t => simp [Held.kind]
  | smart k t => cases k <;> simp [Held.kind]

theorem kind_intrusive {h : Held} : h.kind = .intrusive ↔ ∃ t, h = .smart .intrusive t := by
  cases h with
  | plain t => simp [Held.kind]
  | smart k t => cases k <;> simp [Held.kind]

/-- One cast. -/
theorem cast_gives (hf : T.Fits p) (hw : ∀ k, Sound p s (w k)) (hi : ∀ k o, (w k).obj = .to o → T.Instance o (T.type k).elem.cls) {i j : Nat} {e : Elem} {c : Cat}
    (ht : Action.Typed T p w (.cast i j e c)) (h0 : Action.NotNull T w (.cast i j e c)) :
    ∃ w' r, (PtrOp.construct i (T.castSource j e c (w j).obj)).run (T.env cfg) s w = .ok (w', r) ∧ CastGives (Sound p s) T w w' i j e c r := by
  obtain ⟨hij, ht⟩ := ht
  rw [castSource_eq]
  have run := fun r hr => run_cast (X := T.env cfg) (s := s) (i := i) (h := T.how j e (w j).obj) (c := (T.type j).kind.smart = true ∧ c = .rvalue) (r := r) (hw j).copy hr
  have hkind : (T.env cfg).kind j = (T.type j).kind := rfl
  rcases hw j with ⟨hn, hv⟩ | ⟨o, ho, hd⟩
  · have hn0 := h0 hn
    have hr : VirtualPtr.castObj (T.how j e (w j).obj) ((T.env cfg).kind j) (w j).obj = .ok (some .null) := by
      rw [hn, hkind]
      rcases hn0 with hs | ⟨hs, hu⟩
      · rw [kind_shared.2 hs]; rfl
      · have : (T.how j e .null).dynamic = false := (castDynamic_iff hf.wf).2 hu
        rw [kind_intrusive.2 hs]
        simp [VirtualPtr.castObj, this]
    rw [run _ hr]
    dsimp only
    rw [source_eq (by rw [hn]; exact fun _ h => nomatch h)]
    refine ⟨_, _, rfl, ?_, ?_, ?_⟩
    · intro o ho; rw [hn] at ho; cases ho
    · intro o ho; rw [hn] at ho; cases ho
    · intro _
      refine ⟨rfl, by rw [Function.update_self], ?_, fun k hk => by rw [Function.update_of_ne hk]⟩
      rw [Function.update_self]
      exact .inl ⟨rfl, hv⟩
  · have hobj := Sets.to_designated hd
    have hinst := instance_iff hf (d := e.cls) ho (hi j o hobj)
    by_cases hI : T.Instance o e.cls
    · have hb : (T.how j e (w j).obj).isInstance = true := by rw [hobj]; exact hinst.2 hI
      have hr : VirtualPtr.castObj (T.how j e (w j).obj) ((T.env cfg).kind j) (w j).obj = .ok (some (.to o)) := by
        rw [hobj] at hb ⊢
        unfold VirtualPtr.castObj
        simp [hb]
      rw [run _ hr]
      refine ⟨_, _, rfl, ?_, ?_, ?_⟩
      · intro o' ho' _
        obtain rfl := ObjPtr.to.inj (hobj.symm.trans ho')
        refine ⟨rfl, by rw [Function.update_self], ?_, fun hrel => ?_, fun hrel => ?_, fun k hk hkj => ?_⟩
        · rw [Function.update_self, ← hobj]
          exact .inr ⟨_, ho, hd⟩
        · obtain ⟨rfl, hrel⟩ := hrel
          rw [← kind_unique, ← kind_shared] at hrel
          rw [Function.update_of_ne hij.symm, if_pos ⟨by rcases hrel with h | ⟨h, _⟩ <;> rw [h] <;> rfl, rfl⟩, Function.update_self]
          unfold VirtualPtr.castSource
          rw [hkind, hb]
          rcases hrel with h | ⟨h, h'⟩
          · simp [h]
          · simp [h, PtrTypes.env, h']
        · rw [source_eq, Function.update_of_ne hij.symm]
          rintro ⟨_, rfl⟩ _ h
          refine hrel ⟨rfl, ?_⟩
          rw [← kind_unique, ← kind_shared]
          exact h
        · rw [Function.update_of_ne hk]
          split
          · rw [Function.update_of_ne hkj]
          · rfl
      · intro o' ho' hI'
        obtain rfl := ObjPtr.to.inj (hobj.symm.trans ho')
        exact absurd hI hI'
      · intro hn; rw [hn] at hobj; cases hobj
    · have hb : (T.how j e (w j).obj).isInstance = false := by
        rw [hobj]
        exact Bool.eq_false_iff.2 fun h => hI (hinst.1 h)
      have hdyn : (T.how j e (w j).obj).dynamic = true := by
        cases h : (T.how j e (w j).obj).dynamic with
        | true => rfl
        | false => exact absurd (ht o hobj ((castDynamic_iff hf.wf).1 h)) hI
      by_cases hs : (T.type j).kind = .shared
      · have hr : VirtualPtr.castObj (T.how j e (w j).obj) ((T.env cfg).kind j) (w j).obj = .ok (some .null) := by
          rw [hobj] at hb hdyn ⊢
          rw [hkind, hs]
          simp [VirtualPtr.castObj, hb, hdyn]
        rw [run _ hr]
        dsimp only
        rw [source_eq (by rw [hb]; exact fun _ h => nomatch h)]
        refine ⟨_, _, rfl, ?_, ?_, ?_⟩
        · intro o' ho' hI'
          obtain rfl := ObjPtr.to.inj (hobj.symm.trans ho')
          exact absurd hI' hI
        · intro o' ho' _
          refine ⟨fun _ => ⟨rfl, by rw [Function.update_self], ?_, fun k hk => by rw [Function.update_of_ne hk]⟩, fun h => absurd (kind_shared.1 hs) h⟩
          rw [Function.update_self]
          exact .inl ⟨rfl, (hw j).vp⟩
        · intro hn; rw [hn] at hobj; cases hobj
      · have hr : VirtualPtr.castObj (T.how j e (w j).obj) ((T.env cfg).kind j) (w j).obj = .ok none := by
          rw [hobj] at hb hdyn ⊢
          rw [hkind]
          cases hk : (T.type j).kind <;> simp_all [VirtualPtr.castObj]
        rw [run _ hr]
        refine ⟨_, _, rfl, ?_, ?_, ?_⟩
        · intro o' ho' hI'
          obtain rfl := ObjPtr.to.inj (hobj.symm.trans ho')
          exact absurd hI' hI
        · intro o' ho' _
          exact ⟨fun h => absurd (kind_shared.2 h) hs, fun _ => ⟨rfl, rfl⟩⟩
        · intro hn; rw [hn] at hobj; cases hobj

end OpenMethod
