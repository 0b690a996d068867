import Verif.Proof.MacroProgram
import Verif.Props.Bodies

/-!
# C74: programs written with macros
-/

namespace OpenMethod

open Spec Props Cpp Examples MacroSource

namespace Props

variable {P : MacroSource} {S : Source} {cfg : Config} {rs : List ClassInfo}

/-- A call that is accepted reaches the method that overload resolution selects among ordinary functions. -/
theorem C74_calls {found : List Nat} {as : List CT} {k : Nat} (h : P.lookup found as = some k) : P.Reaches found as k := by
  obtain ⟨⟨h1, m, h2, h3⟩, h4⟩ := lookup_only h
  exact ⟨h1, m, h2, h3, fun k' hk m' hm hc => .inl (h4 k' hk m' hm hc)⟩

/-- In a program that is accepted, the overriders are attached to the methods that overload resolution selects. -/
theorem C74_written (hP : P.Ok cfg) (h : P.elaborate = some S) : P.Written S := by
  obtain ⟨ts, hts, rfl⟩ := elaborate_iff.1 h
  refine ⟨rfl, rfl, rfl, rfl, by simp, ?_⟩
  intro k m M hm hM
  simp only [List.getElem?_mapIdx, hm, Option.map_some, Option.some.injEq] at hM
  subst hM
  refine ⟨rfl, rfl, overridersOf_sublist hts k, fun o ho => ?_⟩
  rw [mem_overridersOf hts]
  constructor
  · rintro ⟨o', ho', he, ht⟩
    obtain rfl := List.inj_on_of_nodup_map hP.pf ho' ho (congrArg OverrideDecl.pf he)
    exact C74_calls (target_iff.1 ht).1
  · rintro ⟨hk, m', hm', hc, -⟩
    obtain ⟨i, hi⟩ := List.mem_iff_getElem?.1 ho
    obtain ⟨t, -, ht⟩ := forall₂_get hts hi
    have := (lookup_only (target_iff.1 ht).1).2 k hk m' hm' hc
    subst this
    exact ⟨o, ho, rfl, ht⟩

/-- The conditions of C63 and C65 are met: the macros only accept derived classes for the parameters marked with `virtual_`. -/
theorem C74_ok (hP : P.Ok cfg) (h : P.elaborate = some S) : S.Ok cfg := by
  obtain ⟨ts, hts, rfl⟩ := elaborate_iff.1 h
  have hmem : ∀ M ∈ (P.methods.mapIdx fun k m => (⟨m.params, m.ret, P.overridersOf ts k⟩ : MethodDecl)), ∃ (k : Nat) (m : MacroMethod), P.methods[k]? = some m ∧ m ∈ P.methods ∧
      M = ⟨m.params, m.ret, P.overridersOf ts k⟩ := by
    intro M hM
    obtain ⟨k, hk⟩ := List.mem_iff_getElem?.1 hM
    rw [List.getElem?_mapIdx] at hk
    obtain ⟨m, hm, rfl⟩ := Option.map_eq_some_iff.1 hk
    exact ⟨k, m, hm, List.mem_of_getElem? hm, rfl⟩
  have hov : ∀ {k : Nat} {d : OverrideDecl}, d ∈ P.overridersOf ts k → ∃ o ∈ P.overriders, o.decl = d ∧ P.target o = some k := fun hd => (mem_overridersOf hts).1 hd
  have hnd : ∀ {β : Type} (f : OverrideDecl → β), (P.overriders.map fun o => f o.decl).Nodup →
      (((P.methods.mapIdx fun k m => (⟨m.params, m.ret, P.overridersOf ts k⟩ : MethodDecl)).flatMap (·.overriders)).map f).Nodup := by
    intro β f hf
    have hf' : ((P.overriders.map (·.decl)).map f).Nodup := by rwa [List.map_map]
    rw [List.map_flatMap]
    have e : (P.methods.mapIdx fun k m => (⟨m.params, m.ret, P.overridersOf ts k⟩ : MethodDecl)).flatMap (fun M => M.overriders.map f) =
        (List.range P.methods.length).flatMap fun k => (P.overridersOf ts k).map f := by
      rw [List.flatMap_def, List.flatMap_def]
      congr 1
      apply List.ext_getElem? 
      intro i
      simp only [List.getElem?_map, List.getElem?_mapIdx, Option.map_map]
      by_cases hi : i < P.methods.length
      · simp [hi]
      · simp [hi]
    rw [e, List.nodup_flatMap]
    refine ⟨fun k _ => hf'.sublist ((overridersOf_sublist hts k).map f), List.nodup_range.imp ?_⟩
    intro a b hab x hxa hxb
    obtain ⟨d, hd, rfl⟩ := List.mem_map.1 hxa
    obtain ⟨d', hd', e'⟩ := List.mem_map.1 hxb
    obtain ⟨o, ho, rfl, h1⟩ := hov hd
    obtain ⟨o', ho', rfl, h2⟩ := hov hd'
    obtain rfl := List.inj_on_of_nodup_map hf ho' ho e'
    exact hab (Option.some.inj (h1.symm.trans h2))
  constructor
  case wf => exact hP.wf
  case proper =>
    intro M hM
    obtain ⟨k, m, _, hm, rfl⟩ := hmem M hM
    refine ⟨hP.proper.1 m hm, fun d hd t ht => ?_⟩
    obtain ⟨o, ho, rfl, _⟩ := hov hd
    exact (hP.proper.2 o ho t ht).1
  case properRet =>
    intro M hM
    obtain ⟨k, m, _, hm, rfl⟩ := hmem M hM
    refine ⟨hP.properRet.1 m hm, fun d hd t ht => ?_⟩
    obtain ⟨o, ho, rfl, _⟩ := hov hd
    exact hP.properRet.2 o ho t ht
  case noRef =>
    intro M hM
    obtain ⟨k, m, _, hm, rfl⟩ := hmem M hM
    exact hP.noRef m hm
  case registry =>
    intro M hM
    obtain ⟨k, m, _, hm, rfl⟩ := hmem M hM
    exact hP.registry m hm
  case virt =>
    intro M hM d hd
    obtain ⟨k, m, hk, hm, rfl⟩ := hmem M hM
    obtain ⟨o, ho, rfl, ht⟩ := hov hd
    obtain ⟨hl, m', hk', hv⟩ := target_iff.1 ht
    obtain rfl := Option.some.inj (hk.symm.trans hk')
    obtain ⟨⟨hf, m', hk', hc⟩, -⟩ := lookup_only hl
    obtain rfl := Option.some.inj (hk.symm.trans hk')
    exact related_of_macro hP.wf (fun q hq => (hP.proper.2 o ho q hq).2) (hP.rvalues o ho) hv hc
  case together => exact hP.together
  case defined => exact hP.defined
  case complete =>
    intro M hM
    obtain ⟨k, m, _, hm, rfl⟩ := hmem M hM
    exact hP.complete m hm
  case completeRet =>
    intro M hM
    obtain ⟨k, m, _, hm, rfl⟩ := hmem M hM
    refine ⟨fun c ⟨t, h1, h2⟩ => hP.completeRet.1 m hm t h1 c h2, fun d hd c ⟨t, h1, h2⟩ => ?_⟩
    obtain ⟨o, ho, rfl, _⟩ := hov hd
    exact hP.completeRet.2 o ho t h1 c h2
  case ids => exact hP.typeIds
  case otherIds => exact hP.otherIds
  case void => exact hP.void
  case useIds => exact hP.useIds
  case vars => exact hP.vars
  case pf => exact hnd (·.pf) hP.pf
  case next => exact hnd (·.next) hP.next

/-- What C74 says of the calls that meet condition `C`, and of programs that use `next` in the overriders of methods that meet condition `N`. -/
def WorksNamed (C : Source → Program → MethodDecl → List Cls → Prop) (N : Source → MethodDecl → Prop) : Prop :=
  ∀ (P : MacroSource) (cfg : Config) (S : Source), P.Ok cfg → P.elaborate = some S →
    P.Written S ∧ WorksFor C S cfg ∧ ExecutesFor C N S cfg ∧ ∀ found as k, P.lookup found as = some k → P.Reaches found as k

/-- C74: in a program written with the macros, that the compiler accepts, overriders are attached to the methods that overload resolution selects by their names, and so are calls; calls then have the
documented outcome, and the program runs as the documentation says. -/
def C74 : Prop := WorksNamed (fun _ _ _ _ => True) fun _ _ => True

/-- C74, under the conditions of C65_partial on orders of registration, contiguous virtual parameters, choices settled by direct comparisons, and nested overriders. -/
theorem C74_partial : WorksNamed (fun S p M xs => (AllTogether S.cpp.hier S.uses ∨ ArgsSafe p M.classes xs) ∧ (M.classes.length = 1 ∨ Contiguous M.kinds) ∧ S.Settled M xs)
    fun S M => S.Nested M :=
  fun _ _ _ hP h => ⟨C74_written hP h, C63_partial _ _ (C74_ok hP h), C65_partial _ _ (C74_ok hP h), fun _ _ _ => C74_calls⟩

/-- A program is accepted, as far as the choice of methods is concerned, if and only if for each overrider a single method can be called with its parameters, and this method accepts it. -/
theorem C74_accepted (hf : ∀ o ∈ P.overriders, o.found.Nodup ∧ ∀ k ∈ o.found, k < P.methods.length) :
    (∃ S, P.elaborate = some S) ↔ ∀ o ∈ P.overriders, ∃ k ∈ o.found, ∃ m, P.methods[k]? = some m ∧ P.cpp.callable m.params o.decl.params = true ∧
      P.cpp.validOverrider m.params o.decl.params = true ∧ ∀ k' ∈ o.found, ∀ m', P.methods[k']? = some m' → P.cpp.callable m'.params o.decl.params = true → k' = k := by
  have ht : ∀ o ∈ P.overriders, (∃ t, P.target o = some t) ↔ ∃ k ∈ o.found, ∃ m, P.methods[k]? = some m ∧ P.cpp.callable m.params o.decl.params = true ∧
      P.cpp.validOverrider m.params o.decl.params = true ∧ ∀ k' ∈ o.found, ∀ m', P.methods[k']? = some m' → P.cpp.callable m'.params o.decl.params = true → k' = k := by
    intro o ho
    obtain ⟨ms, hms⟩ := parameters_of (hf o ho).2
    constructor
    · rintro ⟨k, hk⟩
      obtain ⟨h1, m, h2, h3⟩ := target_iff.1 hk
      obtain ⟨⟨h4, m', h5, h6⟩, h7⟩ := lookup_only h1
      obtain rfl := Option.some.inj (h2.symm.trans h5)
      exact ⟨k, h4, m, h2, h6, h3, h7⟩
    · rintro ⟨k, h1, m, h2, h3, h4, h5⟩
      exact ⟨k, target_iff.2 ⟨(lookup_iff hms (hf o ho).1).2 ⟨⟨h1, m, h2, h3⟩, h5⟩, m, h2, h4⟩⟩
  constructor
  · rintro ⟨S, hS⟩ o ho
    obtain ⟨ts, hts, -⟩ := elaborate_iff.1 hS
    obtain ⟨i, hi⟩ := List.mem_iff_getElem?.1 ho
    obtain ⟨t, -, h⟩ := forall₂_get hts hi
    exact (ht o ho).1 ⟨t, h⟩
  · intro h
    obtain ⟨ts, hts⟩ := forall₂_exists fun o ho => (ht o ho).2 (h o ho)
    exact ⟨_, elaborate_iff.2 ⟨ts, hts, rfl⟩⟩

/-! ## Concrete programs -/

/-- The program of C63, written with macros: `meet` (0), `f` (1), `g` (2) and `h` (3); `f` and `g` have the same name. -/
def chainMacros (css : List (List Cls)) : MacroSource where
  cpp := polymorphic chain5
  rtti := rt
  ids := idOf
  uses := css.map uses
  methods := [⟨[vpc 1, .virt (.lref (.cls 1)), .other 0], some (.ptr (.cls 1))⟩, ⟨[.virt (.lref (.cls 5))], none⟩, ⟨[.virt (.lref (.cls 2))], none⟩, ⟨[.virt (.lref (.cls 3))], some (.other 0)⟩]
  overriders := [
    ⟨[3], [.lref (.cls 3)], some (.other 0), 30, 30⟩, ⟨[0], [vpc 1, .lref (.cls 2), .other 0], some (.ptr (.cls 1)), 10, 10⟩, ⟨[1], [.lref (.cls 5)], none, 50, 50⟩,
    ⟨[0], [vpc 2, .lref (.cls 1), .other 0], some (.ptr (.cls 2)), 11, 11⟩, ⟨[1, 2], [.lref (.cls 2)], none, 20, 20⟩, ⟨[3], [.lref (.cls 4)], some (.other 0), 31, 31⟩,
    ⟨[0], [vpc 3, .lref (.cls 3), .other 0], some (.ptr (.cls 3)), 12, 12⟩]

theorem chainMacros_elaborate {css : List (List Cls)} : (chainMacros css).elaborate = some (chainSource css) := by
  have h : ∀ o ∈ List.zip (chainMacros []).overriders [3, 0, 1, 0, 2, 3, 0], (chainMacros []).target o.1 = some o.2 := by decide +kernel
  refine elaborate_iff.2 ⟨[3, 0, 1, 0, 2, 3, 0], List.forall₂_iff_zip.2 ⟨rfl, fun {o t} ho => h (o, t) ho⟩, rfl⟩

theorem chainMacros_ok {css : List (List Cls)} (h : (chainSource css).Ok hashed) : (chainMacros css).Ok hashed := by
  have hov : ∀ o ∈ (chainMacros css).overriders, ∃ M ∈ chainMethods, o.decl ∈ M.overriders := by
    intro o ho
    obtain ⟨ts, hts, e⟩ := elaborate_iff.1 (chainMacros_elaborate (css := css))
    obtain ⟨i, hi⟩ := List.mem_iff_getElem?.1 ho
    obtain ⟨t, -, ht⟩ := forall₂_get hts hi
    obtain ⟨-, m, hm, -⟩ := target_iff.1 ht
    refine ⟨⟨m.params, m.ret, (chainMacros css).overridersOf ts t⟩, ?_, (mem_overridersOf hts).2 ⟨o, ho, rfl, ht⟩⟩
    rw [show chainMethods = (chainSource css).methods from rfl, e]
    exact List.mem_iff_getElem?.2 ⟨t, by simp only [List.getElem?_mapIdx, hm, Option.map_some]⟩
  have hme : ∀ m ∈ (chainMacros css).methods, ∃ M ∈ chainMethods, M.params = m.params ∧ M.ret = m.ret := by
    intro m hm
    obtain ⟨ts, hts, e⟩ := elaborate_iff.1 (chainMacros_elaborate (css := css))
    obtain ⟨i, hi⟩ := List.mem_iff_getElem?.1 hm
    refine ⟨⟨m.params, m.ret, (chainMacros css).overridersOf ts i⟩, ?_, rfl, rfl⟩
    rw [show chainMethods = (chainSource css).methods from rfl, e]
    exact List.mem_iff_getElem?.2 ⟨i, by simp only [List.getElem?_mapIdx, hi, Option.map_some]⟩
  have hpf : ((chainMacros []).overriders.map (·.decl.pf)).Nodup := by decide +kernel
  have hnext : ((chainMacros []).overriders.map (·.decl.next)).Nodup := by decide +kernel
  have hin : ∀ o ∈ (chainMacros css).overriders, ∀ t ∈ o.decl.params, t.InHier chain5 := by
    have hd : ∀ c ∈ [1, 2, 3, 4, 5], chain5.Defined c := by
      have : ∀ c ∈ [1, 2, 3, 4, 5], (chain5.any (·.1 == c)) = true := by decide
      exact fun c hc => (defined_iff _ _).1 (this c hc)
    have : ∀ o ∈ (chainMacros []).overriders, ∀ t ∈ o.decl.params, (∃ c ∈ [1, 2, 3, 4, 5], t = vpc c) ∨ (∃ c ∈ [1, 2, 3, 4, 5], t = .lref (.cls c)) ∨ t = .other 0 := by decide +kernel
    intro o ho t ht
    rcases this o ho t ht with ⟨c, hc, rfl⟩ | ⟨c, hc, rfl⟩ | rfl
    · exact hd c hc
    · exact hd c hc
    · trivial
  constructor
  case wf => exact h.wf
  case proper =>
    constructor
    · intro m hm t ht
      obtain ⟨M, hM, e1, e2⟩ := hme m hm
      exact (h.proper M hM).1 t (e1 ▸ ht)
    · intro o ho t ht
      obtain ⟨M, hM, e⟩ := hov o ho
      exact ⟨(h.proper M hM).2 _ e t ht, hin o ho t ht⟩
  case properRet =>
    constructor
    · intro m hm t ht
      obtain ⟨M, hM, e1, e2⟩ := hme m hm
      exact (h.properRet M hM).1 t (e2 ▸ ht)
    · intro o ho t ht
      obtain ⟨M, hM, e⟩ := hov o ho
      exact (h.properRet M hM).2 _ e t ht
  case noRef =>
    intro m hm t ht
    obtain ⟨M, hM, e1, e2⟩ := hme m hm
    exact h.noRef M hM t (e1 ▸ ht)
  case rvalues =>
    have : ∀ o ∈ (chainMacros []).overriders, ∀ t ∈ o.decl.params, t.isRref = false := by decide +kernel
    intro o ho u hu
    cases this o ho _ hu
  case registry =>
    intro m hm t n ht
    obtain ⟨M, hM, e1, e2⟩ := hme m hm
    exact h.registry M hM t n (e1 ▸ ht)
  case together => exact h.together
  case defined => exact h.defined
  case complete =>
    intro m hm c hc
    obtain ⟨M, hM, e1, e2⟩ := hme m hm
    exact h.complete M hM c (by unfold MethodDecl.classes; rw [e1]; exact hc)
  case completeRet =>
    constructor
    · intro m hm t ht c hc
      obtain ⟨M, hM, e1, e2⟩ := hme m hm
      exact (h.completeRet M hM).1 c ⟨t, e2.trans ht, hc⟩
    · intro o ho t ht c hc
      obtain ⟨M, hM, e⟩ := hov o ho
      exact (h.completeRet M hM).2 _ e c ⟨t, ht, hc⟩
  case typeIds => exact h.ids
  case otherIds => exact h.otherIds
  case void => exact h.void
  case useIds => exact h.useIds
  case vars => exact h.vars
  case pf => exact hpf
  case next => exact hnext

/-- C74_partial applies to this program, with one `use_classes`. -/
example : (chainMacros [[5, 4, 3, 2, 1]]).Ok hashed ∧ (chainMacros [[5, 4, 3, 2, 1]]).elaborate = some (chainSource [[5, 4, 3, 2, 1]]) ∧ (chainSource [[5, 4, 3, 2, 1]]).compile = some allBases ∧
    (chainMacros [[5, 4, 3, 2, 1]]).lookup [1, 2] [.lref (.cls 3)] = some 2 :=
  ⟨chainMacros_ok (chainSource_ok (by decide +kernel) (by decide +kernel)), chainMacros_elaborate, by decide +kernel, by decide +kernel⟩

/-- A call of `f`, or `g`, with an object of class 5, is rejected: both can be called, and neither is better as the forwarders have the same parameters. Overload resolution selects `f` among ordinary
functions. -/
theorem C74_rejected {css : List (List Cls)} : (chainMacros css).Reaches [1, 2] [.lref (.cls 5)] 1 ∧ (chainMacros css).lookup [1, 2] [.lref (.cls 5)] = none := by
  refine ⟨⟨by simp, _, rfl, show (chainMacros []).cpp.callable _ _ = true by decide +kernel, ?_⟩, show (chainMacros []).lookup [1, 2] [.lref (.cls 5)] = none by decide +kernel⟩
  intro k' hk' m' hm' hc
  simp only [List.mem_cons, List.not_mem_nil, or_false] at hk'
  rcases hk' with rfl | rfl
  · exact .inl rfl
  · cases hm'
    exact .inr ⟨⟨.inr ⟨rfl, 2, 5, .virt .lref, by decide⟩, trivial⟩, by decide +kernel⟩

/-- C74 does not hold without the condition on the order, as C63. -/
theorem C74_refuted : ¬ C74 := fun h =>
  chain_late (h _ _ _ (chainMacros_ok (css := lateLists) (chainSource_ok (by decide +kernel) (by decide +kernel))) chainMacros_elaborate).2.1

end Props

end OpenMethod
