import Verif.Proof.Bodies
import Verif.Props.Source

/-! # What calls, `next` and results are in the model, for C65 -/

namespace OpenMethod

open Spec Source Props Cpp

/-! ## Arguments -/

section

variable {S : Source} {p : Program} {s : RegState} {bs ds : List Cls} {ks : List Bool} {args as as' : List Passed} {xs : List Cls}

theorem classesIn_eq (hr : p.rtti = S.rtti) (h : PassedFor S.cpp.hier p s bs ks args xs) : S.classesIn args = xs := by
  induction h with
  | nil => rfl
  | @virt bs ks as xs b a x ha _ ih =>
    obtain ⟨pass, vp, ref⟩ := a
    obtain ⟨r, e, _, rfl, _⟩ := ha
    simp only at e
    subst e
    simp only [classesIn, ih, hr]
  | other v _ ih => simpa only [classesIn] using ih

theorem delivered (hr : p.rtti = S.rtti) (h' : PassedFor S.cpp.hier p s ds ks as xs) (hs : List.Forall₂ SamePassed args as) : S.Delivered ds args as := by
  induction h' generalizing args with
  | nil => cases hs; exact .nil
  | @virt bs ks as xs b a x ha _ ih =>
    obtain ⟨pass, vp, ref⟩ := a
    obtain ⟨r, e, _, rfl, h1, h2, _⟩ := ha
    simp only at e
    subst e
    cases hs with
    | cons h3 h4 =>
      cases h3 with
      | virt e => rw [hr] at h1; exact .virt e.symm (by rw [e]; exact h1) h2 (ih h4)
  | other v _ ih =>
    cases hs with
    | cons h3 h4 =>
      cases h3
      exact .other v (ih h4)

theorem delivered_unique (h : S.Delivered ds args as) (h' : S.Delivered ds args as') (hn : ∀ x ∈ S.classesIn args, S.cpp.hier.NoRepeat x) : as' = as := by
  induction h generalizing as' with
  | nil => cases h'; rfl
  | other v _ ih =>
    cases h' with
    | other _ h' => rw [ih h' hn]
  | @virt d ds as as1 pass vp r r' h1 h2 h3 _ ih =>
    cases h' with
    | @virt _ _ _ _ _ _ _ r2 g1 g2 g3 h' =>
      simp only [classesIn, List.mem_cons, forall_eq_or_imp] at hn
      rw [ih h' hn.2]
      obtain ⟨o1, p1⟩ := r'
      obtain ⟨o2, p2⟩ := r2
      simp only at h1 h2 h3 g1 g2 g3
      rw [hn.1 d _ _ g2 h2 g3 h3, h1, g1]

end

/-! ## Results -/

theorem CT.resultClass_eq (t : CT) : t.resultClass = t.class? := by
  induction t <;> simp_all [CT.resultClass, CT.class?]

theorem Source.result_eq {S : Source} {cfg : Config} (hS : S.Ok cfg) {n i : Nat} {M : MethodDecl} {o : OverrideDecl} (hM : S.methods[n]? = some M) (ho : M.overriders[i]? = some o) (r : Result) :
    S.result n o.pf r = match M.ret, o.ret with
      | some t, some u => returned S.cpp.hier (S.cpp.bindsTemporary u t) t.class? u.class? r
      | _, _ => returned S.cpp.hier false none none r := by
  have hf : M.overriders.find? (·.pf = o.pf) = some o := by
    cases hf : M.overriders.find? (·.pf = o.pf) with
    | none =>
      rw [List.find?_eq_none] at hf
      exact absurd (by simp) (hf o (List.mem_of_getElem? ho))
    | some o' =>
      have h1 : o'.pf = o.pf := by simpa using List.find?_some hf
      obtain ⟨j, hj⟩ := List.getElem?_of_mem (List.mem_of_find?_eq_some hf)
      obtain ⟨_, rfl⟩ := flatMap_pos (·.overriders) (·.pf) S.methods hS.pf hM hM hj ho h1
      exact (congrArg _ (Option.some.inj (hj.symm.trans ho)))
  simp only [result, hM, hf, Res.ofOption_some, Res.ok_bind, CT.resultClass_eq]
  rfl

/-- What a caller receives. -/
theorem Source.Receives.cases {S : Source} {t u : Option CT} {r r' : Result} (h : S.Receives t u r r') (hf : S.Fits u r) :
    (∀ pass vp q, r ≠ some (.virt ⟨pass, vp, some q⟩)) ∧ r' = r ∨
    ∃ t' pass vp q q', t = some t' ∧ r = some (.virt ⟨pass, vp, some q⟩) ∧ r' = some (.virt ⟨pass, vp, some q'⟩) ∧ q'.obj = q.obj ∧
      S.cpp.hier.Subobject (S.rtti.ti q.obj.type) q'.path ∧ ∃ c, t'.class? = some c ∧ Hier.OfClass q'.path c := by
  cases h with
  | same =>
    cases hf with
    | void => exact .inl ⟨by simp, rfl⟩
    | other => exact .inl ⟨by simp, rfl⟩
    | null => exact .inl ⟨by simp, rfl⟩
    | virt h1 h2 h3 _ => exact .inr ⟨_, _, _, _, _, rfl, rfl, rfl, rfl, h2, _, h1, h3⟩
  | other => exact .inl ⟨by simp, rfl⟩
  | null => exact .inl ⟨by simp, rfl⟩
  | virt h1 h2 h3 h4 => exact .inr ⟨_, _, _, _, _, rfl, rfl, rfl, h2, h3, _, (class_covariant h1).1, h4⟩

theorem Source.Receives.unique {S : Source} {t u : Option CT} {r r1 r2 : Result} (h : S.Receives t u r r1) (h' : S.Receives t u r r2) (hf : S.Fits u r) : r2 = r1 := by
  rcases h.cases hf with ⟨h1, rfl⟩ | ⟨t1, pass, vp, q, q1, rfl, rfl, rfl, e1, s1, c, hc, oc⟩
  · rcases h'.cases hf with ⟨_, rfl⟩ | ⟨_, _, _, _, _, _, e, _⟩
    · rfl
    · exact absurd e (h1 _ _ _)
  · rcases h'.cases hf with ⟨h1, _⟩ | ⟨t2, _, _, _, q2, e, e', rfl, e2, s2, d, hd, od⟩
    · exact absurd rfl (h1 _ _ _)
    · cases e; cases e'
      obtain rfl := Option.some.inj (hc.symm.trans hd)
      cases hf with
      | virt _ _ _ hn =>
        obtain ⟨o1, p1⟩ := q1
        obtain ⟨o2, p2⟩ := q2
        simp only at e1 e2 s1 s2 oc od
        rw [e1, e2, hn _ _ _ s2 s1 od oc]

theorem convert_null {H : Hier} (hw : H.WF) {d c : Cls} (h : H.Unambiguous d c) (pass : Pass) (vp : Option Boxed) :
    returned H false (some c) (some d) (some (.virt ⟨pass, vp, none⟩)) = .ok (some (.virt ⟨pass, vp, none⟩)) := by
  obtain ⟨τ, h1, h2⟩ := h
  have ho := (Hier.only_eq_some hw).2 ⟨h1, h2⟩
  simp [returned, convertArg, ho, Res.ofOption]

theorem binds_self (E : Cpp) (t : CT) : E.bindsTemporary t t = false := by
  unfold bindsTemporary
  split <;> simp [bindsTo, bindsTo.same]

theorem binds_covariant {E : Cpp} (hw : E.hier.WF) {t u : CT} {c d : Cls} (h : t.Covariant u c d) (hb : E.hier.Unambiguous d c) : E.bindsTemporary u t = false := by
  have hb := (isConvertible_iff hw).2 hb
  cases h <;> simp [bindsTemporary, bindsTo, bindsTo.same, hb]

theorem Source.result_ok {S : Source} {cfg : Config} (hS : S.Ok cfg) {n i : Nat} {M : MethodDecl} {o : OverrideDecl} (hM : S.methods[n]? = some M) (ho : M.overriders[i]? = some o)
    (hd : DocumentedReturn S.cpp.hier M.ret o.ret) {r : Result} (hf : S.Fits o.ret r) :
    ∃ r', S.result n o.pf r = .ok r' ∧ S.Receives M.ret o.ret r r' ∧ ∀ r'', S.Receives M.ret o.ret r r'' → r'' = r' := by
  suffices h : ∃ r', S.result n o.pf r = .ok r' ∧ S.Receives M.ret o.ret r r' by
    obtain ⟨r', h1, h2⟩ := h
    exact ⟨r', h1, h2, fun r'' h => h2.unique h hf⟩
  rw [Source.result_eq hS hM ho]
  rcases hd with e | ⟨t, u, c, d, e1, e2, hv, hb⟩
  · rw [e] at hf ⊢
    cases ht : M.ret with
    | none =>
      rw [ht] at hf
      cases hf
      exact ⟨none, rfl, .same⟩
    | some t =>
      rw [ht] at hf
      simp only [binds_self]
      cases hf with
      | other => exact ⟨_, rfl, .same⟩
      | null h1 h2 =>
        rw [h1]
        exact ⟨_, convert_null hS.wf (Hier.unambiguous_self hS.wf h2) _ _, .same⟩
      | @virt _ d pass vp q h1 h2 h3 hn =>
        rw [h1]
        obtain ⟨a', g1, ⟨q', g2, g3, g4, g5⟩, g6, g7, g8⟩ := C64_result (E := S.cpp) (ti := S.rtti.ti) (a := ⟨pass, vp, some q⟩) hS.wf
          (Hier.unambiguous_self hS.wf ((h2.inherits h3).defined hS.wf h2.defined)) ⟨q, rfl, rfl, h2, h3⟩
        obtain ⟨pass', vp', ref'⟩ := a'
        simp only at g2 g7 g8
        subst g2 g7 g8
        refine ⟨_, g1, ?_⟩
        cases g6 with
        | virt e =>
          obtain ⟨o1, p1⟩ := q
          obtain ⟨o2, p2⟩ := q'
          simp only at e h2 h3 hn g4 g5
          subst e
          rw [hn _ _ _ h2 g4 h3 g5]
          exact .same
  · rw [e1, e2]
    rw [e2] at hf
    obtain ⟨k1, k2⟩ := class_covariant hv
    simp only [binds_covariant hS.wf hv hb, k1, k2]
    cases hf with
    | other => exact ⟨_, rfl, .other⟩
    | null h1 h2 => exact ⟨_, convert_null hS.wf hb _ _, .null hv⟩
    | @virt _ d' pass vp q h1 h2 h3 hn =>
      obtain rfl := Option.some.inj (k2.symm.trans h1)
      obtain ⟨a', g1, ⟨q', g2, g3, g4, g5⟩, g6, g7, g8⟩ := C64_result (E := S.cpp) (ti := S.rtti.ti) (a := ⟨pass, vp, some q⟩) hS.wf hb ⟨q, rfl, rfl, h2, h3⟩
      obtain ⟨pass', vp', ref'⟩ := a'
      simp only at g2 g7 g8
      subst g2 g7 g8
      refine ⟨_, g1, ?_⟩
      cases g6 with
      | virt e => exact .virt hv e.symm g4 g5

/-! ## Positions of overriders -/

section

variable {A A' : Nat → Prop} {more more' : Nat → Nat → Prop} {os : List Nat}

theorem Spec.Best.reorder (hA : ∀ i, A' i ↔ ∃ o, os[i]? = some o ∧ A o) (hs : ∀ o, A o → ∃ i : Nat, os[i]? = some o)
    (hi : ∀ (i j o : Nat), os[i]? = some o → os[j]? = some o → i = j)
    (hm : ∀ (i j o o' : Nat), os[i]? = some o → os[j]? = some o' → (more' i j ↔ more o o')) :
    (∀ i, Best A' more' (.run i) → ∃ o, os[i]? = some o ∧ Best A more (.run o)) ∧ (Best A' more' .noOverrider → Best A more .noOverrider) ∧
    (Best A' more' .ambiguous → Best A more .ambiguous) := by
  have und : ∀ i o : Nat, os[i]? = some o → ((A' i ∧ ∀ j, A' j → ¬ more' j i) ↔ (A o ∧ ∀ j, A j → ¬ more j o)) := by
    intro i o ho
    constructor
    · rintro ⟨h1, h2⟩
      obtain ⟨o', ho', h1⟩ := (hA i).1 h1
      obtain rfl := Option.some.inj (ho.symm.trans ho')
      refine ⟨h1, fun j hj h => ?_⟩
      obtain ⟨j', hj'⟩ := hs j hj
      exact h2 j' ((hA j').2 ⟨j, hj', hj⟩) ((hm j' i j o hj' ho).2 h)
    · rintro ⟨h1, h2⟩
      refine ⟨(hA i).2 ⟨o, ho, h1⟩, fun j hj h => ?_⟩
      obtain ⟨o', ho', hj⟩ := (hA j).1 hj
      exact h2 o' hj ((hm j i o' o ho' ho).1 h)
  have key : ∀ i o : Nat, os[i]? = some o → (Best A' more' (.run i) ↔ Best A more (.run o)) := by
    intro i o ho
    simp only [Best]
    rw [und i o ho]
    refine and_congr_right fun _ => ⟨fun h k hk hk' => ?_, fun h k hk hk' => ?_⟩
    · obtain ⟨k', e⟩ := hs k hk
      obtain ⟨h1, h2⟩ := (und k' k e).2 ⟨hk, hk'⟩
      have := h k' h1 h2
      subst this
      exact Option.some.inj (e.symm.trans ho)
    · obtain ⟨o', e, _⟩ := (hA k).1 hk
      obtain ⟨h1, h2⟩ := (und k o' e).1 ⟨hk, hk'⟩
      have := h o' h1 h2
      subst this
      exact hi _ _ _ e ho
  refine ⟨fun i h => ?_, fun h o ho => ?_, ?_⟩
  · obtain ⟨o, ho, _⟩ := (hA i).1 h.1.1
    exact ⟨o, ho, (key i o ho).1 h⟩
  · obtain ⟨i, e⟩ := hs o ho
    exact h i ((hA i).2 ⟨o, e, ho⟩)
  · rintro ⟨⟨i, h1⟩, h2⟩
    obtain ⟨o, ho, h1⟩ := (hA i).1 h1
    refine ⟨⟨o, h1⟩, ?_⟩
    rintro ⟨k, hk⟩
    obtain ⟨k', e⟩ := hs k hk.1.1
    exact h2 ⟨k', (key k' k e).2 hk⟩

end

section

variable {D : Cls → Cls → Prop} {css css' : List (List Cls)} {os : List Nat} {xs : List Cls}

theorem InOrder.next (h : InOrder css css' os) {j o : Nat} (hj : os[j]? = some o) :
    (∀ i, NextIn D css' xs j (.run i) → ∃ k, os[i]? = some k ∧ NextIn D css xs o (.run k)) ∧ (NextIn D css' xs j .noOverrider → NextIn D css xs o .noOverrider) ∧
    (NextIn D css' xs j .ambiguous → NextIn D css xs o .ambiguous) := by
  have hm : ∀ (i j o o' : Nat), os[i]? = some o → os[j]? = some o' → (MoreIn D css' i j ↔ MoreIn D css o o') := by
    intro i j o o' h1 h2
    unfold MoreIn
    rw [h.get, h.get, h1, h2]
    rfl
  refine Best.reorder ?_ ?_ (fun _ _ _ => h.inj) hm
  · intro i
    rw [h.applicable]
    constructor
    · rintro ⟨⟨k, hk, h1⟩, h2⟩
      exact ⟨k, hk, h1, (hm j i o k hj hk).1 h2⟩
    · rintro ⟨k, hk, h1, h2⟩
      exact ⟨⟨k, hk, h1⟩, (hm j i o k hj hk).2 h2⟩
  · rintro k ⟨⟨cs, hk, _⟩, _⟩
    exact h.mem hk

end

/-! ## Calls and `next` -/

section

variable {S : Source} {rs : List ClassInfo} {L : Alive} {E : Env} {s s' : RegState} {rep : Report}

/-- The program is compiled, loaded and initialized. -/
structure Started (S : Source) (rs : List ClassInfo) (L : Alive) (E : Env) (s s' : RegState) (rep : Report) : Prop where
  ok : S.Ok E.cfg
  compiles : S.compile = some rs
  loaded : S.Loaded rs L
  rule : E.n2216 = false
  init : Initializes E (S.found rs L) s s' rep
  ret : ∀ M ∈ S.methods, ∀ o ∈ M.overriders, DocumentedReturn S.cpp.hier M.ret o.ret

/-- The overriders that are entered. -/
def Running (S : Source) (rs : List ClassInfo) (L : Alive) (s' : RegState) (F : Frame) (n i : Nat) (as : List Passed) : Prop :=
  ∃ (M : MethodDecl) (o : OverrideDecl) (j : Nat), S.methods[n]? = some M ∧ M.overriders[i]? = some o ∧ F.method = S.record rs n ((L.overriders n).map (·.1)) ∧ F.method.overriders[j]? = some F.overrider ∧
    ((L.overriders n).map (·.1))[j]? = some i ∧ (∃ pl gen rep img, install pl false (S.found rs L) gen = .ok (rep, img) ∧ (∀ v, nextAt img v ≠ none → s'.next v = nextAt img v) ∧
      nextAt img F.overrider.next ≠ none) ∧ S.Typed (S.found rs L) s' (o.classes M) M.kinds as

theorem Started.registered (T : Started S rs L E s s' rep) {n : Nat} {M : MethodDecl} (hM : S.methods[n]? = some M) {o : OverriderInfo}
    (ho : o ∈ (S.record rs n ((L.overriders n).map (·.1))).overriders) : ∀ x ∈ classesOf (S.found rs L) o.vp, Named S.uses x := by
  obtain ⟨_, _, hreg, _⟩ := C57 (T.ok.registers T.compiles T.loaded) T.ok.together
  obtain ⟨c, img, R, _⟩ := init_ready (T.ok.good T.compiles T.loaded) T.init
  intro x hx
  obtain ⟨t, ht, rfl⟩ := List.mem_map.1 hx
  exact (hreg _).1 ((R.ok.lat.mem_order _).1 ((R.ok.methOk _ ((Source.mem_methods T.loaded).2 ⟨n, M, hM, rfl⟩)).ovp o ho t ht))

theorem Started.derives (T : Started S rs L E s s' rep) {c b : Cls} (hc : Named S.uses c) : Derives (S.found rs L) c b ↔ S.cpp.hier.Inherits c b :=
  (C57 (T.ok.registers T.compiles T.loaded) T.ok.together).2.2.2 c b hc

/-- Overrider number `j` of the record. -/
theorem Started.position (T : Started S rs L E s s' rep) {n : Nat} {M : MethodDecl} (hM : S.methods[n]? = some M) {j i : Nat} (hj : ((L.overriders n).map (·.1))[j]? = some i) :
    ∃ o, M.overriders[i]? = some o ∧ (S.record rs n ((L.overriders n).map (·.1))).overriders[j]? = some (readOverrider (S.decls rs) (S.static rs) n i) ∧
      (readOverrider (S.decls rs) (S.static rs) n i).pf = o.pf ∧ classesOf (S.found rs L) (readOverrider (S.decls rs) (S.static rs) n i).vp = o.classes M := by
  have hd := List.getElem?_eq_getElem (List.mem_range.1 ((T.loaded.overriders n M hM).subset (List.mem_of_getElem? hj)))
  refine ⟨_, hd, ?_, by simp [readOverrider, Source.decls, hM, hd], Source.override_classes T.ok T.compiles hM hd⟩
  simp only [Source.record, readMethod, List.getElem?_map] at hj ⊢
  cases h : (L.overriders n)[j]? with
  | none => rw [h] at hj; cases hj
  | some x =>
    rw [h] at hj
    simp only [Option.map_some, Option.some.injEq] at hj ⊢
    rw [hj]

theorem Started.enters_with (T : Started S rs L E s s' rep) {σ : Type} (types : List Passed → List TypeId) (throws : Bool) (code : Nat → List Passed → Body σ)
    {n : Nat} {M : MethodDecl} (hM : S.methods[n]? = some M) {j i : Nat} (hj : ((L.overriders n).map (·.1))[j]? = some i) {args as : List Passed}
    (ht : S.Typed (S.found rs L) s' M.classes M.kinds args)
    (k2 : PassedFor S.cpp.hier (S.found rs L) s' (classesOf (S.found rs L) (readOverrider (S.decls rs) (S.static rs) n i).vp) M.kinds as (S.classesIn args))
    (k3 : List.Forall₂ SamePassed args as)
    (hset : ∃ pl gen rep img, install pl false (S.found rs L) gen = .ok (rep, img) ∧ (∀ v, nextAt img v ≠ none → s'.next v = nextAt img v) ∧
      nextAt img (readOverrider (S.decls rs) (S.static rs) n i).next ≠ none) :
    (Machine.mk E.cfg S (S.found rs L) s' types throws code).Enters (Running S rs L s') (S.record rs n ((L.overriders n).map (·.1))) n args (.run i)
      (.ok (.entered (readOverrider (S.decls rs) (S.static rs) n i) as)) := by
  obtain ⟨o, ho, h1, h2, h3⟩ := T.position hM hj
  rw [h3] at k2
  have hd := delivered (S := S) rfl k2 k3
  have hcl := classesIn_eq (S := S) rfl k2
  have hty : S.Typed (S.found rs L) s' (o.classes M) M.kinds as := by
    refine ⟨?_, ?_⟩
    · rw [hcl]; exact k2
    · rw [hcl]; exact ht.2
  exact .run hM ho h2 hd (fun as' h => delivered_unique hd h ht.2) hty ⟨M, o, j, hM, ho, rfl, h1, hj, hset, hty⟩

theorem Started.enters (T : Started S rs L E s s' rep) {σ : Type} (types : List Passed → List TypeId) (throws : Bool) (code : Nat → List Passed → Body σ)
    {n : Nat} {M : MethodDecl} (hM : S.methods[n]? = some M) {j i : Nat} (hj : ((L.overriders n).map (·.1))[j]? = some i) {args : List Passed}
    (ht : S.Typed (S.found rs L) s' M.classes M.kinds args) (hA : Applicable (S.found rs L) (readOverrider (S.decls rs) (S.static rs) n i) (S.classesIn args))
    (hset : ∃ pl gen rep img, install pl false (S.found rs L) gen = .ok (rep, img) ∧ (∀ v, nextAt img v ≠ none → s'.next v = nextAt img v) ∧
      nextAt img (readOverrider (S.decls rs) (S.static rs) n i).next ≠ none) :
    (Machine.mk E.cfg S (S.found rs L) s' types throws code).Enters (Running S rs L s') (S.record rs n ((L.overriders n).map (·.1))) n args (.run i)
      (enterThunk S.cpp.hier S.rtti (S.record rs n ((L.overriders n).map (·.1))) args (readOverrider (S.decls rs) (S.static rs) n i).pf) := by
  obtain ⟨o, ho, h1, h2, h3⟩ := T.position hM hj
  obtain ⟨hH, _⟩ := C57 (T.ok.registers T.compiles T.loaded) T.ok.together
  have hm := (Source.mem_methods T.loaded).2 ⟨n, M, hM, rfl⟩
  have e1 : classesOf (S.found rs L) (S.record rs n ((L.overriders n).map (·.1))).vp = M.classes := Source.record_classes T.ok T.compiles hM _
  obtain ⟨as, k1, k2, k3⟩ := PassedFor.thunk (m := S.record rs n ((L.overriders n).map (·.1))) hH (by rw [e1]; exact ht.1) ht.2 hA
  have hthunk := enterThunk_eq (H := S.cpp.hier) (T.ok.distinct T.loaded) hm (List.mem_of_getElem? h1) args
  rw [show (S.found rs L).rtti = S.rtti from rfl] at hthunk k1
  rw [hthunk, k1]
  exact T.enters_with types throws code hM hj ht k2 k3 hset

/-- An overrider entered by a call has its `next` set. -/
theorem Started.entered (T : Started S rs L E s s' rep) {n : Nat} {M : MethodDecl} (hM : S.methods[n]? = some M) {args as : List Passed} {types : List TypeId} {o : OverriderInfo}
    (hc : callThunk E.cfg S.cpp.hier S.rtti s' (S.record rs n ((L.overriders n).map (·.1))) args types = .ok (.entered o as))
    (ho : o ∈ (S.record rs n ((L.overriders n).map (·.1))).overriders) :
    ∃ pl gen rep img, install pl false (S.found rs L) gen = .ok (rep, img) ∧ (∀ v, nextAt img v ≠ none → s'.next v = nextAt img v) ∧ nextAt img o.next ≠ none := by
  have hm := (Source.mem_methods T.loaded).2 ⟨n, M, hM, rfl⟩
  have hD := T.ok.distinct T.loaded
  have hp := T.ok.good T.compiles T.loaded
  obtain ⟨c, img, R, _⟩ := init_ready hp T.init
  have hin := R.install
  rw [T.rule] at hin
  refine ⟨_, _, _, _, hin, fun v hv => ?_, ?_⟩
  · rw [init_next T.init R.compiled R.written]
    cases h : nextAt img v with
    | none => exact absurd h hv
    | some f => rfl
  · unfold callThunk at hc
    obtain ⟨bs, _, hc⟩ := Res.bind_eq_ok.1 hc
    obtain ⟨k, hk, hc⟩ := Res.bind_eq_ok.1 hc
    rw [R.call hm] at hk
    have hko : k = o.pf := by
      unfold enterThunk at hc
      split at hc
      · rename_i o2 hf
        have hf2 : o2.pf = k := by simpa using List.find?_some hf
        unfold thunk at hc
        obtain ⟨q, _, hc⟩ := Res.bind_eq_ok.1 hc
        split at hc
        · simp only [Res.ok.injEq, Entered.entered.injEq] at hc
          rw [← hc.1]; exact hf2.symm
        · simp at hc
      · cases hc
    subst hko
    obtain ⟨m1, hm1, o1, ho1, hpf, f, hf, _⟩ := next_entered hp.valid hD R.install hk
    obtain ⟨j, hj⟩ := List.getElem?_of_mem ho
    obtain ⟨j1, hj1⟩ := List.getElem?_of_mem ho1
    obtain ⟨rfl, _, rfl⟩ := hD.index hm1 hm hj1 hj hpf
    rw [hf]; simp

theorem Started.nested (T : Started S rs L E s s' rep) {n : Nat} {M : MethodDecl} (hM : S.methods[n]? = some M) (hN : S.Nested M) :
    Spec.Nested (S.found rs L) (S.record rs n ((L.overriders n).map (·.1))) := by
  have hR := T.ok.registers T.compiles T.loaded
  obtain ⟨_, _, hreg, hiff⟩ := C57 hR T.ok.together
  intro ys ⟨hy1, hy2⟩ a ha b hb hA hB hm
  have e1 : classesOf (S.found rs L) (S.record rs n ((L.overriders n).map (·.1))).vp = M.classes := Source.record_classes T.ok T.compiles hM _
  rw [e1] at hy1
  have hn : ∀ y ∈ ys, Named S.uses y := fun y hy => (hreg y).1 (hy2 y hy)
  have pos : ∀ a ∈ (S.record rs n ((L.overriders n).map (·.1))).overriders, ∃ o ∈ M.overriders, classesOf (S.found rs L) a.vp = o.classes M := by
    intro a ha
    obtain ⟨j, hj⟩ := List.getElem?_of_mem ha
    have hlt : j < ((L.overriders n).map (·.1)).length := by
      have := (List.getElem?_eq_some_iff.1 hj).1
      simpa [Source.record, readMethod] using this
    obtain ⟨o, ho, h1, _, h3⟩ := T.position hM (List.getElem?_eq_getElem hlt)
    obtain rfl := Option.some.inj (h1.symm.trans hj)
    exact ⟨o, List.mem_of_getElem? ho, h3⟩
  obtain ⟨o, ho, ea⟩ := pos a ha
  obtain ⟨o', ho', eb⟩ := pos b hb
  have hm' := (moreSpecificBy_congr (D := Derives (S.found rs L)) (D' := S.cpp.hier.Inherits) (fun x hx y => hiff x y (T.registered hM ha x hx))
    (fun x hx y => hiff x y (T.registered hM hb x hx))).1 hm
  have key := hN ys hn (hy1.imp fun _ _ h => hR.sound h) o ho o' ho' (by rw [← ea]; exact hA.imp fun _ _ h => hR.sound h) (by rw [← eb]; exact hB.imp fun _ _ h => hR.sound h)
    (by rw [← ea, ← eb]; exact hm')
  rw [← ea, ← eb] at key
  exact (applicableBy_congr (D := Derives (S.found rs L)) (D' := S.cpp.hier.Inherits) (o := b) (fun x hx y => hiff x y (T.registered hM ha x hx))).2 key

theorem Started.nextIn (T : Started S rs L E s s' rep) {n : Nat} {M : MethodDecl} (hM : S.methods[n]? = some M) {xs : List Cls} (hx : ∀ x ∈ xs, Named S.uses x) (j : Nat) (r : Outcome) :
    NextExpected (S.found rs L) (S.record rs n ((L.overriders n).map (·.1))) xs j r ↔
      NextIn S.cpp.hier.Inherits ((S.record rs n ((L.overriders n).map (·.1))).overriders.map fun o => classesOf (S.found rs L) o.vp) xs j r := by
  obtain ⟨_, _, hreg, hiff⟩ := C57 (T.ok.registers T.compiles T.loaded) T.ok.together
  generalize hm : S.record rs n ((L.overriders n).map (·.1)) = m
  have h1 : ∀ k, ApplicableAt (S.found rs L) m xs k ↔ ApplicableIn S.cpp.hier.Inherits (m.overriders.map fun o => classesOf (S.found rs L) o.vp) xs k := by
    intro k
    unfold ApplicableAt ApplicableIn
    rw [List.getElem?_map]
    cases m.overriders[k]? with
    | none => simp
    | some o =>
      simp only [Option.some.injEq, exists_eq_left', Option.map_some]
      exact applicableBy_congr (D := Derives (S.found rs L)) (D' := S.cpp.hier.Inherits) (o := o) fun x h y => hiff x y (hx x h)
  have h2 : Dominates (S.found rs L) m = MoreIn S.cpp.hier.Inherits (m.overriders.map fun o => classesOf (S.found rs L) o.vp) := by
    funext a b
    apply propext
    unfold Dominates MoreIn
    rw [List.getElem?_map, List.getElem?_map]
    cases ha : m.overriders[a]? with
    | none => simp
    | some o =>
      cases hb : m.overriders[b]? with
      | none => simp
      | some o' =>
        simp only [Option.some.injEq, exists_and_left, exists_eq_left', Option.map_some]
        subst hm
        exact moreSpecificBy_congr (D := Derives (S.found rs L)) (D' := S.cpp.hier.Inherits) (fun x hx y => hiff x y (T.registered hM (List.mem_of_getElem? ha) x hx))
          (fun x hx y => hiff x y (T.registered hM (List.mem_of_getElem? hb) x hx))
  unfold NextExpected NextIn
  rw [h2]
  exact Best.congr (fun k => and_congr_left fun _ => h1 k) r

/-- What `next` contains, in an overrider that runs. -/
theorem Started.next (T : Started S rs L E s s' rep) {F : Frame} {n i : Nat} {as : List Passed} (hF : Running S rs L s' F n i as) {M : MethodDecl} (hM : S.methods[n]? = some M)
    (hN : S.Nested M) {o : OverrideDecl} (ho : M.overriders[i]? = some o) {args : List Passed} {bs : List Cls} (hbs : List.Forall₂ (fun d c => S.cpp.hier.Inherits d c) bs M.classes)
    (ht : S.Typed (S.found rs L) s' bs M.kinds args) (ha : List.Forall₂ (fun q a => S.cpp.hier.Inherits a q) (o.classes M) (S.classesIn args)) :
    ∃ f r, s'.next F.overrider.next = some f ∧ S.Next M (S.classesIn args) i r ∧
      ((∃ (j k : Nat), ((L.overriders n).map (·.1))[j]? = some k ∧ r = .run k ∧ f = .user (readOverrider (S.decls rs) (S.static rs) n k).pf ∧
          Applicable (S.found rs L) (readOverrider (S.decls rs) (S.static rs) n k) (S.classesIn args) ∧
          ∃ pl gen rep img, install pl false (S.found rs L) gen = .ok (rep, img) ∧ (∀ v, nextAt img v ≠ none → s'.next v = nextAt img v) ∧
            nextAt img (readOverrider (S.decls rs) (S.static rs) n k).next ≠ none) ∨
        r = .noOverrider ∧ f = .notImplemented n ∨ r = .ambiguous ∧ f = .ambiguous n) := by
  obtain ⟨M', o', j, hM', ho', e1, h1, hj, ⟨pl, gen, rep', img, hin, himg, hset⟩, _⟩ := hF
  obtain rfl := Option.some.inj (hM.symm.trans hM')
  obtain rfl := Option.some.inj (ho.symm.trans ho')
  have hR := T.ok.registers T.compiles T.loaded
  obtain ⟨_, _, hreg, hiff⟩ := C57 hR T.ok.together
  have hm := (Source.mem_methods T.loaded).2 ⟨n, M, hM, rfl⟩
  rw [e1] at h1
  obtain ⟨o1, ho1, h2, _, h3⟩ := T.position hM hj
  obtain rfl := Option.some.inj (ho.symm.trans ho1)
  have e2 := Option.some.inj (h1.symm.trans h2)
  have hx : ∀ x ∈ S.classesIn args, Named S.uses x := fun x h => (hreg x).1 (ht.1.registered x h)
  have hacc : Accepts (S.found rs L) M.classes (S.classesIn args) := by
    have h4 := PassedFor.accepts hR T.ok.together ht.1
    have h5 : ∀ {qs bs xs : List Cls}, List.Forall₂ (fun d c => S.cpp.hier.Inherits d c) bs qs → Accepts (S.found rs L) bs xs → (∀ x ∈ xs, Named S.uses x) → Accepts (S.found rs L) qs xs := by
      intro qs bs xs h
      induction h generalizing xs with
      | nil => intro h _; cases h; exact .nil
      | cons h _ ih =>
        intro h' hx
        cases h' with
        | cons g1 g2 =>
          rw [List.forall_mem_cons] at hx
          exact .cons ((hiff _ _ hx.1).2 (((hiff _ _ hx.1).1 g1).trans h)) (ih g2 hx.2)
    exact h5 hbs h4 hx
  have hcall : Callable (S.found rs L) (S.record rs n ((L.overriders n).map (·.1))) (S.classesIn args) := by
    refine ⟨?_, ht.1.registered⟩
    rw [Source.record_classes T.ok T.compiles hM]
    exact hacc
  have hA : Applicable (S.found rs L) F.overrider (S.classesIn args) := by
    rw [e2]
    refine (applicableBy_congr (D := Derives (S.found rs L)) (D' := S.cpp.hier.Inherits) fun x h y => hiff x y (hx x h)).2 ?_
    unfold ApplicableBy
    rw [h3]
    exact ha
  obtain ⟨f, r, k1, k2, _, k4⟩ := next_expected (T.ok.good T.compiles T.loaded).valid (T.ok.distinct T.loaded) hin hm (T.nested hM hN) h1 hset hcall hA
  have hio := Source.inOrder T.ok T.compiles T.loaded hM
  rw [T.nextIn hM hx] at k2
  obtain ⟨i1, i2, i3⟩ := hio.next (D := S.cpp.hier.Inherits) (xs := S.classesIn args) hj
  have hs : s'.next F.overrider.next = some f := by rw [himg _ hset]; exact k1
  rcases k4 with ⟨b, o2, rfl, hb, rfl, hA2, hset2⟩ | ⟨rfl, rfl⟩ | ⟨rfl, rfl⟩
  · obtain ⟨k, hk, hk'⟩ := i1 b k2
    obtain ⟨_, _, h4, _, _⟩ := T.position hM hk
    obtain rfl := Option.some.inj (h4.symm.trans hb)
    exact ⟨_, .run k, hs, hk', .inl ⟨b, k, hk, rfl, rfl, hA2, pl, gen, rep', img, hin, himg, hset2⟩⟩
  · exact ⟨_, .noOverrider, hs, i2 k2, .inr (.inl ⟨rfl, rfl⟩)⟩
  · exact ⟨_, .ambiguous, hs, i3 k2, .inr (.inr ⟨rfl, rfl⟩)⟩

theorem next_unique {M : MethodDecl} {xs : List Cls} {i : Nat} {r r' : Outcome} (h : S.Next M xs i r) (h' : S.Next M xs i r') : r = r' :=
  Machine.best_unique (by unfold Source.Next NextIn at h; exact h) (by unfold Source.Next NextIn at h'; exact h')

/-- The condition of C63_partial. -/
def CallOk (S : Source) (p : Program) (M : MethodDecl) (xs : List Cls) : Prop :=
  (AllTogether S.cpp.hier S.uses ∨ ArgsSafe p M.classes xs) ∧ (M.classes.length = 1 ∨ Contiguous M.kinds) ∧ S.Settled M xs

theorem Started.dispatches (T : Started S rs L E s s' rep) {σ : Type} (types : List Passed → List TypeId) (throws : Bool) (code : Nat → List Passed → Body σ) :
    (Machine.mk E.cfg S (S.found rs L) s' types throws code).Dispatches (CallOk S (S.found rs L)) S.Nested (Running S rs L s') := by
  have hR := T.ok.registers T.compiles T.loaded
  constructor
  · rintro n M args hM ht ⟨hord, hcont, hs⟩
    simp only at hM ht hs
    have hm := (Source.mem_methods T.loaded).2 ⟨n, M, hM, rfl⟩
    have hfind : (S.found rs L).methods.find? (·.id = n) = some (S.record rs n ((L.overriders n).map (·.1))) := by
      cases hf : (S.found rs L).methods.find? (·.id = n) with
      | none =>
        rw [List.find?_eq_none] at hf
        exact absurd (decide_eq_true rfl) (hf _ hm)
      | some m =>
        obtain ⟨k, M', hk, rfl⟩ := (Source.mem_methods T.loaded).1 (List.mem_of_find?_eq_some hf)
        have : k = n := by simpa [Source.record, readMethod] using List.find?_some hf
        rw [this]
    have e1 : classesOf (S.found rs L) (S.record rs n ((L.overriders n).map (·.1))).vp = M.classes := Source.record_classes T.ok T.compiles hM _
    have e2 : (S.record rs n ((L.overriders n).map (·.1))).params = M.kinds := Source.record_params T.ok hM _
    have e3 : (S.record rs n ((L.overriders n).map (·.1))).vp.length = M.classes.length := by rw [← e1, classesOf, List.length_map]
    have hio := Source.inOrder T.ok T.compiles T.loaded hM
    obtain ⟨r, h1, h2⟩ := C58_settled_partial (T.ok.good T.compiles T.loaded) (T.ok.distinct T.loaded) T.rule hR T.ok.together T.init hm (by rw [e1, e2]; exact ht.1) ht.2 (by rw [e1]; exact hord)
      (by rw [e3, e2]; exact hcont) (settledBy_in.2 (hio.settled hs)) (types args)
    obtain ⟨i1, i2, i3⟩ := hio.expected (D := S.cpp.hier.Inherits) (xs := S.classesIn args)
    rw [expectedBy_in] at h1
    rw [show (S.found rs L).rtti = S.rtti from rfl] at h2
    cases r with
    | run b =>
      obtain ⟨k, hk, hE⟩ := i1 b h1
      obtain ⟨o', as, ho', h3, h4, h5⟩ := h2
      obtain ⟨o, ho, h6, h7, h8⟩ := T.position hM hk
      obtain rfl := Option.some.inj (h6.symm.trans ho')
      rw [e2] at h4
      refine ⟨_, .run k, hfind, rfl, hE, ?_⟩
      simp only [h3]
      exact T.enters_with types throws code hM hk ht h4 h5 (T.entered hM h3 (List.mem_of_getElem? h6))
    | noOverrider =>
      obtain ⟨a, ts, e⟩ := h2
      exact ⟨_, .noOverrider, hfind, rfl, i2 h1, by simp only [e]; exact .fails .noOverrider⟩
    | ambiguous =>
      obtain ⟨a, ts, e⟩ := h2
      exact ⟨_, .ambiguous, hfind, rfl, i3 h1, by simp only [e]; exact .fails .ambiguous⟩
  · rintro F n i as M o args hF hM ho hN ht ha
    simp only at hM ho ht ha
    have hmeth : F.method = S.record rs n ((L.overriders n).map (·.1)) := by
      obtain ⟨_, _, _, _, _, e, _⟩ := hF
      exact e
    have hrefl : List.Forall₂ (fun d c => S.cpp.hier.Inherits d c) M.classes M.classes := by
      generalize M.classes = cs
      induction cs with
      | nil => exact .nil
      | cons c cs ih => exact .cons .refl ih
    obtain ⟨f, r, h1, h2, h3⟩ := T.next hF hM hN ho hrefl ht ha
    refine ⟨r, by rw [hmeth]; rfl, h2, ?_⟩
    unfold nextThunk
    simp only
    rw [h1, Res.ofOption_some, Res.ok_bind, hmeth]
    rcases h3 with ⟨j, k, hj, rfl, rfl, hA, hset⟩ | ⟨rfl, rfl⟩ | ⟨rfl, rfl⟩
    · rw [show enter (.user (readOverrider (S.decls rs) (S.static rs) n k).pf) (types args) = .ok (readOverrider (S.decls rs) (S.static rs) n k).pf from rfl, Res.ok_bind]
      exact T.enters types throws code hM hj ht hA hset
    · exact .fails .noOverrider
    · exact .fails .ambiguous
  · rintro F n i as M hF hM hN
    simp only at hM
    have hF' := hF
    obtain ⟨M', o, j, hM', ho, e, _, _, _, ht⟩ := hF'
    obtain rfl := Option.some.inj (hM.symm.trans hM')
    have hb : List.Forall₂ (fun d c => S.cpp.hier.Inherits d c) (o.classes M) M.classes :=
      (Source.override_vp T.ok T.compiles hM ho).2.imp fun d c ⟨σ, ⟨h1, h2⟩, _⟩ => h1.inherits h2
    have ha : List.Forall₂ (fun q a => S.cpp.hier.Inherits a q) (o.classes M) (S.classesIn as) :=
      (PassedFor.accepts hR T.ok.together ht.1).imp fun _ _ h => hR.sound h
    obtain ⟨f, r, h1, h2, h3⟩ := T.next hF hM hN ho hb ht ha
    simp only
    rw [h1, show F.method.id = n by rw [e]; rfl]
    rcases h3 with ⟨j, k, hj, rfl, rfl, hA, hset⟩ | ⟨rfl, rfl⟩ | ⟨rfl, rfl⟩
    · exact ⟨fun _ => ⟨k, h2⟩, fun _ => by simp [hasNext]⟩
    · simp only [hasNext, if_true, Bool.false_eq_true, false_iff]
      rintro ⟨j, hj⟩
      cases next_unique h2 hj
    · simp only [hasNext, Option.some.injEq, reduceCtorEq, if_false, if_true, Bool.false_eq_true, false_iff]
      rintro ⟨j, hj⟩
      cases next_unique h2 hj
  · rintro n M i o r hM ho hf
    exact Source.result_ok T.ok hM ho (T.ret M (List.mem_of_getElem? hM) o (List.mem_of_getElem? ho)) hf

end

end OpenMethod
