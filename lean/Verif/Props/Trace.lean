import Verif.Proof.TraceAll
import Verif.Examples.Registries
import Verif.Props.Accept

/-! # C79: tracing -/

namespace OpenMethod.Props

open Spec Examples

variable {E : Env} {p : Program} {s s' : RegState} {rep : Report}

/-- What is documented for one call to `initialize`, for any content of the registry before. -/
structure Traced (E : Env) (p : Program) (s : RegState) : Prop where
  /-- the option only adds a trace -/
  same : ∀ opt, (initRegistryT E p s opt).2 = initRegistry E p s
  /-- no option, no trace -/
  absent : (initRegistryT E p s none).1 = []
  /-- "The tracing code is executed only if `trace::on` is set to `true`." -/
  off : (initRegistryT E p s (some false)).1 = []
  /-- only what is registered is named -/
  sound : ∀ t ∈ (initRegistryT E p s (some true)).1, RegisteredName p t
  /-- it is comprehensive -/
  names : ∀ s' rep, Initializes E p s s' rep → NamesAll p (initRegistryT E p s (some true)).1
  report : ∀ s' rep, Initializes E p s s' rep → summary rep <:+ (initRegistryT E p s (some true)).1
  /-- it is useful for troubleshooting missing class registrations -/
  culprit : ∀ s' t, FailsWith E p s s' (.missingClass t) → Blames p (initRegistryT E p s (some true)).1 t ∧ ¬ Registered p (p.rtti.ti t)

/-- C79 in full: the `trace` option only makes `initialize` write, and only if it is on; then the trace names everything that is registered, and designates the record to blame if a class is missing. -/
def C79 : Prop := ∀ (E : Env) (p : Program) (s : RegState), p.Good E.cfg → Traced E p s

/-- With or without trace, on or off, `initialize` does the same. -/
theorem C79_same (hp : p.Good E.cfg) (opt : Option Bool) : (initRegistryT E p s opt).2 = initRegistry E p s :=
  initRegistryT_snd E hp.valid.acyclic hp.valid.wf s opt

theorem C79_absent (hp : p.Good E.cfg) : (initRegistryT E p s none).1 = [] := by
  rcases initRegistryT_off (E := E) (o := none) s hp.valid.acyclic hp.valid.wf (by simp) with ⟨_, h⟩ | ⟨_, h⟩
  · simpa using h
  · exact h

/-- What is written when the trace is off: nothing, except for the first line of the search for hash factors. -/
theorem C79_off (hp : p.Good E.cfg) :
    ((initRegistryT E p s (some false)).1 = [] ∨ E.cfg.vector = true ∧ E.cfg.typeHash = true ∧ (initRegistryT E p s (some false)).1 = hashLine p) ∧
    (E.cfg.vector = true → E.cfg.typeHash = true → Initializes E p s s' rep → (initRegistryT E p s (some false)).1 = hashLine p) := by
  rcases initRegistryT_off (E := E) (o := some false) s hp.valid.acyclic hp.valid.wf (by simp) with ⟨_, h⟩ | ⟨hn, h⟩
  · refine ⟨?_, fun hv ht _ => by simpa [hv, ht] using h⟩
    by_cases hv : E.cfg.vector = true ∧ E.cfg.typeHash = true
    · exact .inr ⟨hv.1, hv.2, by simpa [hv.1, hv.2] using h⟩
    · refine .inl ?_
      rw [h, if_neg]
      exact fun hx => hv ⟨hx.1, hx.2.1⟩
  · refine ⟨.inl h, fun _ _ hi => ?_⟩
    obtain ⟨c, _, R, _⟩ := init_ready hp hi
    exact absurd R.compiled (hn c)

theorem registered_summary {r : Report} {t : Tok} (ht : t ∈ summary r) : RegisteredName p t := by
  unfold summary at ht
  simp only [List.mem_append, List.mem_cons, List.cons_append] at ht
  rcases ht with rfl | ht | ht
  · trivial
  · split at ht
    · simp at ht
    · simp only [List.mem_cons, List.not_mem_nil, or_false] at ht
      rcases ht with rfl | rfl | rfl <;> trivial
  · simp only [List.not_mem_nil, or_false] at ht
    rcases ht with rfl | rfl | rfl | rfl | rfl | rfl <;> trivial

/-- `vptrInit` only reports failures of the search for hash factors. -/
theorem vptrInit_error {cfg : Config} {rnd : Nat → BitVec 64} {mem : VarId → Option Ptr} {cs : List CtxClass} {v : VptrState} {r : VptrResult} {e : Err}
    (hv : vptrInit cfg rnd mem cs v = .ok r) (he : r.error = some e) : ∃ a b, e = .searchError a b := by
  unfold vptrInit at hv
  split at hv
  · split at hv
    · rw [Res.bind_eq_ok] at hv
      obtain ⟨r', _, hv⟩ := hv
      cases r' with
      | found h =>
        simp only [fillVec] at hv
        rw [Res.bind_eq_ok] at hv
        obtain ⟨_, _, hv⟩ := hv
        rw [← Res.ok.inj hv] at he; cases he
      | failed a b h =>
        rw [← Res.ok.inj hv] at he
        exact ⟨a, b, (Option.some.inj he).symm⟩
    · simp only [fillVec] at hv
      rw [Res.bind_eq_ok] at hv
      obtain ⟨_, _, hv⟩ := hv
      rw [← Res.ok.inj hv] at he; cases he
  · rw [← Res.ok.inj hv] at he; cases he

theorem C79_sound (hp : p.Good E.cfg) : ∀ t ∈ (initRegistryT E p s (some true)).1, RegisteredName p t := by
  have hac := hp.valid.acyclic
  have hwf := hp.valid.wf
  have hsnd := snd_compileT (o := some true) (l := 0) (pl := E.platform) (n := E.n2216) hac
  have hres := res_compileT (o := some true) (l := 0) (pl := E.platform) (n := E.n2216) hac hwf
  intro t ht
  cases hc : compile E.platform E.n2216 p with
  | err e =>
    rw [initRegistryT_err (hres.trans hc)] at ht
    exact (hsnd t ht).2
  | ub =>
    refine (hsnd t ?_).2
    have hub : (compileT E.platform E.n2216 p (some true) 0).2 = .ub := hres.trans hc
    unfold initRegistryT at ht
    unfold T.out
    rcases hC : compileT E.platform E.n2216 p (some true) 0 with ⟨w, r⟩
    rw [hC] at hub ht
    dsimp only at hub
    subst hub
    exact ht
  | ok c =>
    have C := compile_ok hac hwf hc
    obtain ⟨img, w, _, h1, h2, _⟩ := initRegistryT_parts (o := some true) (s := s) hac hwf hc
    obtain ⟨w', h3, _, h4⟩ := out_vptrInitT (o := some true) (l := 0) E.cfg E.rnd (applyImage c.lattice img s).svptr (ctxClasses c.lattice) (applyImage c.lattice img s).vptr
    rw [h1, h3] at ht
    simp only [List.mem_append] at ht
    rcases ht with ((ht | ht) | ht | ht) | ht
    · exact (hsnd t ht).2
    · refine (snd_writeGlobalT (o := some true) (l := 0) (plain_registered p) (classNames C.lat) ?_ s.fresh t ht).2
      rw [C.meths]
      exact methodNames p c.lattice
    · split at ht
      · simp only [List.mem_cons, List.not_mem_nil, or_false] at ht
        rcases ht with rfl | rfl | rfl <;> trivial
      · simp at ht
    · exact h4 _ (plain_registered p) t ht
    · rcases h2 with rfl | rfl
      · simp at ht
      · rw [if_pos rfl] at ht
        exact registered_summary ht

/-- Classes and their bases are named in all cases. -/
theorem C79_classes {cr : ClassInfo} (hcr : cr ∈ p.classes) :
    .type cr.type ∈ (initRegistryT E p s (some true)).1 ∧ ∀ t ∈ cr.bases, .type t ∈ (initRegistryT E p s (some true)).1 := by
  have hpre : ∀ t, t ∈ (augmentClassesT E.platform p.rtti p.classes).out (some true) 0 → t ∈ (initRegistryT E p s (some true)).1 := by
    intro t ht
    refine (initRegistryT_prefix E p s).subset ?_
    unfold compileT
    exact mem_out_bind ht
  obtain ⟨h1, h2⟩ := mem_augmentClassesT (l := 0) E.platform p.rtti hcr
  exact ⟨hpre _ h1, fun t ht => hpre _ (h2 t ht)⟩

theorem C79_names (hp : p.Good E.cfg) (h : Initializes E p s s' rep) : NamesAll p (initRegistryT E p s (some true)).1 := by
  refine ⟨fun cr hcr => C79_classes hcr, ?_⟩
  obtain ⟨c, _, R, _⟩ := init_ready hp h
  have hac := hp.valid.acyclic
  obtain ⟨ms, hM⟩ : ∃ ms, augment p.rtti c.lattice p.methods = .ok ms := by
    rcases compile_shape R.compiled hac hp.valid.wf with ⟨e, he, _⟩ | ⟨he, _⟩ | ⟨c', ms, he, _, h3, _⟩
    · cases he
    · cases he
    · obtain rfl := Res.ok.inj he
      exact ⟨ms, h3⟩
  have hpre : ∀ t, t ∈ (augmentMethodsT p.rtti c.lattice p.methods).out (some true) 2 → t ∈ (initRegistryT E p s (some true)).1 := by
    intro t ht
    refine (initRegistryT_prefix E p s).subset ?_
    unfold compileT
    rw [T.out_bind_ok ((res_augmentClassesT hac).trans R.lattice)]
    apply List.mem_append_right
    apply mem_out_bind
    rw [out_augmentT]
    exact List.mem_append_right _ ht
  have hrec : records ((augmentMethodsT p.rtti c.lattice p.methods).out (some true) 2) = p.methods.flatMap recordsOf := by
    rcases records_augmentMethodsT (l := 2) p.rtti c.lattice p.methods with ⟨_, h2⟩ | ⟨t, _, _, _, h2, _⟩
    · exact h2
    · unfold augment at hM
      rw [h2] at hM
      cases hM
  have hin : ∀ t, t ∈ p.methods.flatMap recordsOf → t ∈ (initRegistryT E p s (some true)).1 := by
    intro t ht
    rw [← hrec] at ht
    exact hpre t (List.mem_filter.1 ht).1
  intro m hm
  refine ⟨hin _ (List.mem_flatMap.2 ⟨m, hm, by simp [recordsOf]⟩), fun ov hov => hin _ (List.mem_flatMap.2 ⟨m, hm, ?_⟩)⟩
  exact List.mem_cons_of_mem _ (List.mem_map.2 ⟨ov, hov, rfl⟩)

theorem C79_report (hp : p.Good E.cfg) (h : Initializes E p s s' rep) : summary rep <:+ (initRegistryT E p s (some true)).1 := by
  obtain ⟨c, _, R, _⟩ := init_ready hp h
  obtain ⟨img, w, _, h1, _, h3⟩ := initRegistryT_parts (o := some true) (s := s) hp.valid.acyclic hp.valid.wf R.compiled
  rw [h1, h3 s' rep h, if_pos rfl]
  exact List.suffix_append _ _

theorem C79_culprit (hp : p.Good E.cfg) {t : TypeId} (h : FailsWith E p s s' (.missingClass t)) :
    Blames p (initRegistryT E p s (some true)).1 t ∧ ¬ Registered p (p.rtti.ti t) := by
  have hac := hp.valid.acyclic
  have hwf := hp.valid.wf
  have hc : compile E.platform E.n2216 p = .err (.missingClass t) := by
    cases hc : compile E.platform E.n2216 p with
    | ub =>
      unfold FailsWith initRegistry at h
      rw [hc] at h
      cases h
    | err e =>
      unfold FailsWith initRegistry at h
      rw [hc] at h
      simp only [Res.ok.injEq, InitOut.mk.injEq, Except.error.injEq] at h
      rw [h.2]
    | ok c =>
      exfalso
      have C := compile_ok hac hwf hc
      obtain ⟨_, img, hw, _⟩ := writeGlobal_ok C s.fresh
      rcases init_cases E p s with h0 | ⟨e', hc', _⟩ | ⟨c', hc', h0⟩
      · rw [FailsWith, h0] at h; cases h
      · rw [hc] at hc'; cases hc'
      · obtain rfl := Res.ok.inj (hc.symm.trans hc')
        rcases fails_cases hp h with hs | ⟨_, _, a, b, he⟩
        · rcases h0 with ⟨e, he⟩ | ⟨img', hw', h0⟩
          · rw [hw] at he; cases he
          rcases h0 with ⟨e, he⟩ | ⟨v, hv, h0⟩
          · exact vptrInit_no_err (ctxOk (cfg := E.cfg) C.lat hp.ids) e he
          rcases h0 with ⟨e', hve, h0⟩ | ⟨_, h0⟩
          · rw [FailsWith, h0] at h
            simp only [Res.ok.injEq, InitOut.mk.injEq, Except.error.injEq] at h
            obtain ⟨_, rfl⟩ := h
            obtain ⟨a, b, hab⟩ := vptrInit_error hv hve
            cases hab
          · rw [FailsWith, h0] at h
            simp at h
        · cases he
  rw [initRegistryT_err ((res_compileT hac hwf).trans hc)]
  exact compileT_blames hac hwf hc

/-- C79 for registries that do not search hash factors. -/
theorem C79_partial (hp : p.Good E.cfg) (hh : ¬ (E.cfg.vector = true ∧ E.cfg.typeHash = true)) : Traced E p s where
  same := C79_same hp
  absent := C79_absent hp
  off := by
    rcases (C79_off (s := s) (s' := s) (rep := ⟨0, 0, 0⟩) hp).1 with h | ⟨h1, h2, _⟩
    · exact h
    · exact absurd ⟨h1, h2⟩ hh
  sound := C79_sound hp
  names _ _ := C79_names hp
  report _ _ := C79_report hp
  culprit _ _ := C79_culprit hp

/-- `trace::from_env`: the trace is on if and only if the variable is set to "1"; also with the Microsoft library. -/
theorem C79_env (v : Option (List Char)) : (fromEnv v = true ↔ v = some "1".toList) ∧ fromEnvMsvc v = fromEnv v := by
  match v with
  | none => exact ⟨by simp [fromEnv], rfl⟩
  | some [] => exact ⟨by simp [fromEnv], rfl⟩
  | some [c] => simp [fromEnv, fromEnvMsvc]
  | some (c :: d :: cs) => simp [fromEnv, fromEnvMsvc]

/-! ## Refutation -/

theorem zoo_hashed : Initializes (env hashed) zoo .init ((initOf (env hashed) zoo .init).get (by decide +kernel)).1 ((initOf (env hashed) zoo .init).get (by decide +kernel)).2 :=
  initOf_eq (by simp)

/-- With `fast_perfect_hash`, `initialize(trace{false})` writes "Finding hash factor for 4 types". -/
theorem zoo_off : (initRegistryT (env hashed) zoo .init (some false)).1 = hashLine zoo :=
  (C79_off (good (by decide +kernel))).2 rfl rfl zoo_hashed

theorem C79_refuted : ¬ C79 := by
  intro h
  have h1 := (h (env hashed) zoo .init (good (by decide +kernel))).off
  rw [zoo_off] at h1
  cases h1

/-! ## Examples -/

example : hashLine zoo = [.str "Finding hash factor for ", .num (classCount zoo), .str " types\n"] := rfl
example : classCount zoo = 4 := by decide +kernel

/-- C79_partial applies to the same classes and methods in a registry without hash function, and the trace is not empty. -/
example : Traced (env plain) zoo .init := C79_partial (good (by decide +kernel)) (by decide)
example : (initRegistryT (env plain) zoo .init (some true)).1.length > 100 := by decide +kernel
example : NamesAll zoo (initRegistryT (env hashed) zoo .init (some true)).1 := C79_names (good (by decide +kernel)) zoo_hashed

/-- A missing class: the trace designates the overrider to blame. -/
example : ∃ s t, FailsWith (env hashed) noDog .init s (.missingClass t) := by
  refine ⟨.init, 2#64, ?_⟩
  have h : compile .std false noDog = .err (.missingClass 2#64) := errOf_eq (by decide +kernel)
  unfold FailsWith initRegistry
  rw [show (env hashed).platform = .std from rfl, show (env hashed).n2216 = false from rfl, h]

example : fromEnv (some ['1']) = true := rfl
example : fromEnv (some ['1', '0']) = false := rfl
example : fromEnv none = false := rfl

end OpenMethod.Props
