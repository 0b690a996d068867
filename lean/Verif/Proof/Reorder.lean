import Verif.Proof.Congr

/-! # Programs that differ by the order of the overriders -/

namespace OpenMethod

open Spec

variable {pl : Platform} {p p' : Program} {gen : Nat} {img : Image} {m m' : MethodInfo} {args : List (Res Ptr)} {xs : List Cls}

theorem Spec.Reorders.back (hr : Reorders p p') {m' : MethodInfo} (hm : m' ∈ p'.methods) : ∃ m ∈ p.methods, Reordered m m' := by
  have := hr.methods
  generalize p.methods = ms, p'.methods = ms' at this hm
  induction this with
  | nil => simp at hm
  | cons h _ ih =>
    rcases List.mem_cons.1 hm with rfl | hm
    · exact ⟨_, by simp, h⟩
    · obtain ⟨m, h1, h2⟩ := ih hm
      exact ⟨m, by simp [h1], h2⟩

theorem Spec.Reorders.registered (hr : Reorders p p') (c : Cls) : Registered p' c ↔ Registered p c := by
  unfold Registered
  rw [hr.rtti, hr.classes]

theorem Spec.Reorders.valid (hr : Reorders p p') (hv : p.Valid) : p'.Valid := by
  have hd := derives_congr hr.rtti hr.classes
  refine ⟨fun a b h1 h2 => hv.acyclic a b ((hd a b).1 h1) ((hd b a).1 h2), fun m' hm' => ?_, ?_⟩
  · obtain ⟨m, hm, h⟩ := hr.back hm'
    have hw := hv.wf m hm
    exact ⟨h.vp ▸ hw.pos, by rw [h.params, h.vp]; exact hw.kinds, fun o ho => by rw [h.vp]; exact hw.overriders o (h.overriders.subset ho)⟩
  · have e : p'.methods.map (·.id) = p.methods.map (·.id) := by
      have := hr.methods
      generalize p.methods = ms, p'.methods = ms' at this
      induction this with
      | nil => rfl
      | cons h _ ih => rw [List.map_cons, List.map_cons, h.id, ih]
    rw [e]
    exact hv.ids

theorem Spec.Reorders.argSafe (hr : Reorders p p') {b x : Cls} (h : ArgSafe p b x) : ArgSafe p' b x := by
  have hd := derives_congr hr.rtti hr.classes
  have hf : ∀ x b, FoundIn p' p'.classes x b ↔ FoundIn p p.classes x b := by
    intro x b
    have : DeclaredIn p' = DeclaredIn p := by
      funext recs d b
      unfold DeclaredIn
      rw [hr.rtti]
    unfold FoundIn
    rw [this, hr.rtti, hr.classes]
  have hp : ∀ c, ParamClass p' c → ParamClass p c := by
    rintro c ⟨m', hm', hc⟩
    obtain ⟨m, hm, h⟩ := hr.back hm'
    refine ⟨m, hm, ?_⟩
    rw [← h.vp]
    unfold classesOf at hc ⊢
    rw [← hr.rtti]
    exact hc
  intro c hc hxc
  rw [hd] at hxc
  have := h c (hp c hc) hxc
  simp only [Separated, hd, hf, ProperlyDerives] at this ⊢
  exact this

theorem Spec.Reorders.accepted (hr : Reorders p p') (hv : p.Valid) (h : ∃ rep img, install pl false p gen = .ok (rep, img)) (pl' : Platform) (gen' : Nat) :
    ∃ rep img, install pl' false p' gen' = .ok (rep, img) := by
  obtain ⟨rep, img, h⟩ := h
  have c := install_cases (n := false) (pl := pl) hv gen
  rw [h] at c
  simp only [reduceCtorEq, false_and, exists_false, false_or, Res.ok.injEq, Prod.mk.injEq] at c
  obtain ⟨h1, h2, _⟩ := c
  rcases install_cases (n := false) (pl := pl') (hr.valid hv) gen' with ⟨t, _, hn, hu⟩ | ⟨_, ⟨b, d, m', o, k, t, v, _, ⟨hm', ho, ht, hv', hd⟩, _⟩ | ⟨_, h' | ⟨_, h'⟩⟩⟩
  · refine absurd ((hr.registered _).2 ?_) hu
    rw [hr.rtti]
    refine h1 t ?_
    rcases hn with ⟨cr, hcr, hb⟩ | ⟨m', hm', hn⟩
    · exact .inl ⟨cr, hr.classes ▸ hcr, hb⟩
    · obtain ⟨m, hm, h⟩ := hr.back hm'
      refine .inr ⟨m, hm, hn.imp (h.vp ▸ ·) ?_⟩
      rintro ⟨o, ho, ho'⟩
      refine ⟨o, h.overriders.subset ho, ho'.imp_right fun ⟨e, h3, h4⟩ => ⟨e, ?_, ?_⟩⟩
      · rw [← hr.rtti, ← h.ret]; exact h3
      · rw [← hr.rtti, ← h.ret]; exact (hr.registered _).1 h4
  · obtain ⟨m, hm, h⟩ := hr.back hm'
    refine absurd ⟨hm, h.overriders.subset ho, ht, h.vp ▸ hv', ?_⟩ (h2 m o k t v)
    rw [derives_congr hr.rtti hr.classes, hr.rtti] at hd
    exact hd
  · exact h'
  · cases h'

theorem argsFor_other {ptr ptr' : Cls → Ptr} {ks : List Bool} {as : List (Res Ptr)} {xs : List Cls} (h : ArgsFor ptr ks as xs) : ∃ as', ArgsFor ptr' ks as' xs := by
  induction h with
  | nil => exact ⟨_, .nil⟩
  | virt x _ ih => obtain ⟨as', h⟩ := ih; exact ⟨_, .virt x h⟩
  | other r _ ih => obtain ⟨as', h⟩ := ih; exact ⟨_, .other r h⟩

theorem Spec.Reorders.call (hr : Reorders p p') (hm : Reordered m m') (hm' : m' ∈ p'.methods) (hc : CallTo p gen img m args xs) (gen' : Nat) (img' : Image) :
    ∃ args', CallTo p' gen' img' m' args' xs := by
  obtain ⟨args', ha⟩ := argsFor_other (ptr' := img'.ptr gen') hc.args
  refine ⟨args', hm', by rw [hm.params]; exact ha, ⟨?_, fun x hx => (hr.registered x).2 (hc.callable.2 x hx)⟩, ?_, ?_⟩
  · have := hc.callable.1
    unfold Accepts classesOf at this ⊢
    rw [hm.vp, hr.rtti]
    simp only [derives_congr hr.rtti hr.classes]
    exact this
  · have := hc.order
    unfold ArgsSafe classesOf at this ⊢
    rw [hm.vp, hr.rtti]
    exact this.imp fun _ _ h => hr.argSafe h
  · rw [hm.vp, hm.params]
    exact hc.contiguous

/-- The program with overrider `o`, number `i` of method `m`, first. -/
theorem reorders_first (hm : m ∈ p.methods) {i : Nat} {o : OverriderInfo} (ho : m.overriders[i]? = some o) :
    ∃ p', Reorders p p' ∧ m.first i o ∈ p'.methods := by
  obtain ⟨pre, post, e⟩ := List.append_of_mem hm
  refine ⟨{ p with methods := pre ++ m.first i o :: post }, ⟨rfl, rfl, ?_⟩, by simp⟩
  rw [e]
  have hrefl : ∀ l : List MethodInfo, List.Forall₂ Reordered l l := fun l => by
    induction l with
    | nil => exact .nil
    | cons a l ih => exact .cons ⟨rfl, rfl, rfl, rfl, .refl _⟩ ih
  have h2 := List.Forall₂.cons (MethodInfo.first_reordered ho) (hrefl post)
  have := hrefl pre
  generalize pre = a at this ⊢
  clear e
  induction a with
  | nil => exact h2
  | cons x a ih => exact .cons ⟨rfl, rfl, rfl, rfl, .refl _⟩ (ih (hrefl a))

end OpenMethod
