import Verif.Proof.Lookup
import Verif.Props.MacroProgram

/-!
# C81: macros in namespaces
-/

namespace OpenMethod

open Spec Props Cpp Examples

namespace Props

open NsSource

variable {P : NsSource} {o : NsOverride} {k : Nat}

/-- The types in the methods and in the overrider. -/
structure ProperTypes (P : NsSource) (o : NsOverride) : Prop where
  wf : P.cpp.hier.WF
  poly : ∀ c, P.cpp.poly c = true
  methods : ∀ m ∈ P.methods, P.cpp.validMethod m.decl.params = true ∧ ∀ p ∈ m.decl.params, p.Proper
  overrider : ∀ q ∈ o.decl.params, q.Proper ∧ q.InHier P.cpp.hier

/-- What C81 says of the overriders that meet condition `C`. -/
def AddedAcross (C : NsSource → NsOverride → Nat → Prop) : Prop := ∀ (P : NsSource) (o : NsOverride) (k : Nat) (m : NsMethod), ProperTypes P o → P.methods[k]? = some m →
  (o.ns, o.name, o.sig) ∉ o.ctx.overriders → List.Forall₂ (fun p q => Documented P.cpp.hier p q ∧ ¬ Excepted P.cpp p q) m.decl.params o.decl.params →
  P.OnlyOne (fun k => k ∈ o.ctx.methods ∧ P.isNamed o.name k = true) o.decl.params k → C P o k → P.target o = some k

/-- C81: an overrider, in any namespace, is added to the method of its name that can be called with the same arguments, if there is one. -/
def C81 : Prop := AddedAcross fun _ _ _ => True

/-- To which method an overrider is added: the only method that can be called with its parameters, among those that are found; no `using` directive may introduce another container of this name in
its namespace. -/
theorem C81_exact (hw : P.cpp.hier.WF) (hq : ∀ q ∈ o.decl.params, q.Proper ∧ q.InHier P.cpp.hier) :
    P.target o = some k ↔ ¬ P.Clashes o.ctx o.name o.ns ∧ (o.ns, o.name, o.sig) ∉ o.ctx.overriders ∧ P.OnlyOne (P.Finds o.ctx o.ctx.guides o.ns o.name o.decl.params) o.decl.params k ∧
      ∃ m, P.methods[k]? = some m ∧ P.cpp.validOverrider m.decl.params o.decl.params = true := by
  have hl : P.macros.lookup (P.foundGuides o.ctx o.ns o.name o.decl.params) o.decl.params = some k ↔ P.OnlyOne (P.Finds o.ctx o.ctx.guides o.ns o.name o.decl.params) o.decl.params k :=
    lookup_found (List.nodup_dedup _) (fun _ => Finds.lt) fun k => mem_found hw hq
  rw [target, ← hl]
  by_cases hp : P.placed o = true
  · rw [if_pos hp, MacroSource.target_iff]
    obtain ⟨h1, h2⟩ := placed_iff.1 hp
    simp only [h1, h2, not_false_eq_true, true_and, method_get, Option.map_eq_some_iff]
    refine and_congr_right fun _ => ?_
    constructor
    · rintro ⟨_, ⟨m, h3, rfl⟩, h4⟩
      exact ⟨m, h3, h4⟩
    · rintro ⟨m, h3, h4⟩
      exact ⟨_, ⟨m, h3, rfl⟩, h4⟩
  · rw [if_neg hp]
    exact ⟨fun h => (nomatch h), fun h => absurd (placed_iff.2 ⟨h.1, h.2.1⟩) hp⟩

/-- Partial: the method must be found by name lookup, and nothing else than methods declared before may be; and there must be no clash of containers. -/
theorem C81_partial : AddedAcross fun P o k => P.Finds o.ctx o.ctx.guides o.ns o.name o.decl.params k ∧ (∀ u ∈ o.ctx.guides, u.2 ∈ o.ctx.methods) ∧ ¬ P.Clashes o.ctx o.name o.ns := by
  rintro P o k m hP hm hs hd ⟨-, hc, hu⟩ ⟨hf, hg, hn⟩
  have hv : ∀ p ∈ m.decl.params, P.cpp.validMethodParam p = true := by
    have := (hP.methods m (List.mem_of_getElem? hm)).1
    simp only [validMethod, Bool.and_eq_true, List.all_eq_true] at this
    exact this.1
  refine (C81_exact hP.wf hP.overrider).2 ⟨hn, hs, ⟨hf, hc, fun k' hk' m' hm' hc' => hu k' ?_ m' hm' hc'⟩, m, hm, ?_⟩
  · obtain ⟨n, m'', h1, h2, h3⟩ := hk'.declared
    refine ⟨?_, isNamed_iff.2 ⟨m'', h1, h2⟩⟩
    rcases h3 with h3 | h3
    · exact h3.1
    · exact hg _ h3
  · exact validOverrider_of hP.wf hP.poly hv (hP.methods m (List.mem_of_getElem? hm)).2 (fun q hq => (hP.overrider q hq).1) hd

/-! ## Which methods are found -/

theorem associated_of_class {A : Spaces} {H : Hier} {c d : Cls} (h : H.Inherits d c) : ∀ {q : CT}, q.class? = some d → A.Associated H q (A.cls c)
  | .cls d', e => by
    simp only [CT.class?, Option.some.injEq] at e
    subst e
    exact .cls h
  | .lref t, e => .lref (associated_of_class (q := t) h e)
  | .cref t, e => .cref (associated_of_class (q := t) h e)
  | .rref t, e => .rref (associated_of_class (q := t) h e)
  | .ptr t, e => .ptr (associated_of_class (q := t) h e)
  | .smart _ t, e => .smart (associated_of_class (q := t) h e)
  | .virt t, e => .virt (associated_of_class (q := t) h e)
  | .vptr t _, e => .vptr (associated_of_class (q := t) h e)
  | .var _, e => by cases e
  | .uniq _, e => by cases e
  | .other _, e => by cases e
  | .reg _, e => by cases e

theorem class_of_virtual {p q : CT} {c d : Cls} (h : CT.Virtual p q c d) : p.class? = some c ∧ q.class? = some d := by
  cases h with
  | virt h => cases h <;> exact ⟨rfl, rfl⟩
  | value h => cases h <;> exact ⟨rfl, rfl⟩
  | constRef h => cases h <;> exact ⟨rfl, rfl⟩

/-- A method that is in the same namespace as the class of one of its virtual parameters is found by its overriders, in all namespaces. -/
theorem C81_adl {C : Context} {us : List (Ns × Nat)} {m : NsMethod} {qs : List CT} {p : CT} {c : Cls} (hk : k ∈ C.methods) (hm : P.methods[k]? = some m)
    (hd : List.Forall₂ (Documented P.cpp.hier) m.decl.params qs) (hp : p ∈ m.decl.params) (hv : p.IsVirtualParam) (hc : p.class? = some c) (hn : m.ns = P.spaces.cls c) (s : Ns) :
    P.Finds C us s m.name qs k := by
  obtain ⟨i, hi⟩ := List.mem_iff_getElem?.1 hp
  obtain ⟨q, hq, h⟩ := forall₂_get hd hi
  rcases h with ⟨c', d, h1, h2⟩ | ⟨h1, -⟩
  · obtain ⟨e1, e2⟩ := class_of_virtual h1
    obtain rfl := Option.some.inj (hc.symm.trans e1)
    exact .inr ⟨q, List.mem_of_getElem? hq, _, associated_of_class h2.inherits e2, m, hm, rfl, .inl ⟨hk, hn⟩⟩
  · exact absurd hv h1

/-- Without `using`, a method is found in the namespaces that are in its own, unless a nearer namespace has a method of this name. -/
theorem C81_enclosing {C : Context} {m : NsMethod} {qs : List CT} {s : Ns} (hk : k ∈ C.methods) (hm : P.methods[k]? = some m) (hs : m.ns <:+ s) (hd : C.directives = [])
    (hn : ∀ k' ∈ C.methods, ∀ m', P.methods[k']? = some m' → m'.name = m.name → m'.ns <:+ s → m'.ns.length ≤ m.ns.length) : P.Finds C [] s m.name qs k := by
  refine .inl ⟨m.ns, hs, .inl ⟨m, hm, rfl, .inl ⟨hk, rfl⟩⟩, fun e' h1 h2 y h3 => ?_⟩
  rcases h3 with ⟨m', h4, h5, ⟨h6, rfl⟩ | h6⟩ | ⟨a, d, -, h4, -⟩
  · exact absurd (hn y h6 m' h4 h5 h1) (by omega)
  · cases h6
  · obtain ⟨_, h4, -⟩ := Ns.nominated_iff.1 h4
    rw [hd] at h4; cases h4

/-- After a `using` declaration of its guide, in a namespace, a method is found there. -/
theorem C81_using {C : Context} {m : NsMethod} {qs : List CT} {s : Ns} (hm : P.methods[k]? = some m) (hu : (s, k) ∈ C.guides) : P.Finds C C.guides s m.name qs k :=
  .inl ⟨s, List.suffix_refl _, .inl ⟨m, hm, rfl, .inr hu⟩, fun _ h1 h2 => absurd h1.length_le (by omega)⟩

/-- After a `using` directive, for another namespace, that has the method, or an overrider of it, overriders are rejected in the nearest namespace that contains both. -/
theorem C81_directive {a b : Ns} (hs : a <:+ o.ns) (hd : Ns.Nominated o.ctx.directives a b) (hn : Ns.Nearest a b o.ns) (hne : b ≠ o.ns) (hc : P.HasContainer o.ctx o.name b) : P.target o = none := by
  rw [target, if_neg]
  exact fun h => (placed_iff.1 h).1 ⟨a, b, hs, hd, hn, hne, hc⟩

/-! ## Calls -/

/-- A call by name reaches the only method that can be called with these arguments, among those that are found. In an overrider, the names of its members are not those of methods. -/
theorem C81_calls (hw : P.cpp.hier.WF) {C : Context} {s : Ns} {body : Bool} {name : Ident} {as : List CT} (ha : ∀ a ∈ as, a.Proper ∧ a.InHier P.cpp.hier) :
    P.called C s body name as = some k ↔ (body = true → name ≠ .fn ∧ name ≠ .next ∧ name ≠ .hasNext) ∧ P.OnlyOne (P.Finds C C.names s name as) as k := by
  have hb : (body && name.isMember) = false ↔ (body = true → name ≠ .fn ∧ name ≠ .next ∧ name ≠ .hasNext) := by
    cases body <;> cases name <;> simp [Ident.isMember]
  rw [called, foundNames, ← hb]
  by_cases h : (body && name.isMember) = true
  · rw [if_pos h]
    refine ⟨fun h' => ?_, fun h' => by rw [h] at h'; cases h'.1⟩
    exact absurd (MacroSource.lookup_only h').1.1 (by simp)
  · rw [if_neg h, lookup_found (List.nodup_dedup _) (fun _ => Finds.lt) fun k => mem_found hw ha]
    simp [h]

/-- A call from the namespace of an overrider, with arguments of the types of its parameters, reaches the method to which it is added, if the same `using` declarations are made for the guides and for the
functions. -/
theorem C81_same (hw : P.cpp.hier.WF) (hq : ∀ q ∈ o.decl.params, q.Proper ∧ q.InHier P.cpp.hier) (hu : o.ctx.names = o.ctx.guides) (h : P.target o = some k) :
    P.called o.ctx o.ns false o.name o.decl.params = some k :=
  (C81_calls hw hq).2 ⟨by simp, hu ▸ ((C81_exact hw hq).1 h).2.2.1⟩

/-! ## Containers -/

/-- `BOOST_OPENMETHOD_OVERRIDER`: the name denotes the container that is visible, if it is the only one, and the overrider must be in it. -/
theorem C81_container {C : Context} {s n : Ns} {name : Ident} {g : Sig} :
    P.overriderNamed C s name g = some n ↔ (n, name, g) ∈ C.overriders ∧ Ns.Visible (fun n m => m = n ∧ P.HasContainer C name n) C.directives s n ∧
      ∀ m, Ns.Visible (fun n m => m = n ∧ P.HasContainer C name n) C.directives s m → m = n := by
  rw [← container_iff, overriderNamed]
  cases h : P.container C s name with
  | none => simp
  | some n' =>
    by_cases he : n' = n
    · subst he
      simp
    · simp [he]

/-- In a namespace that has the method, or an overrider of it, the overriders of the other namespaces must be qualified. -/
theorem C81_qualify {C : Context} {s n : Ns} {name : Ident} {g : Sig} (hc : P.HasContainer C name s) (h : P.overriderNamed C s name g = some n) : n = s := by
  rw [overriderNamed] at h
  split at h
  · rename_i n' hn
    split at h
    · cases h
      exact ((container_own hc).1 hn).1
    · cases h
  · cases h

/-! ## Programs -/

/-- In a program that is accepted, the overriders of a method are those that can reach it, among the methods that are found from their namespaces. -/
theorem C81_written {cfg : Config} {S : Source} (hP : P.macros.Ok cfg) (h : P.elaborate = some S) :
    P.macros.Written S ∧ ∀ o ∈ P.overriders, ∃ k M, S.methods[k]? = some M ∧ o.decl ∈ M.overriders ∧ P.target o = some k ∧
      P.OnlyOne (P.Finds o.ctx o.ctx.guides o.ns o.name o.decl.params) o.decl.params k := by
  rw [elaborate] at h
  split at h
  · rename_i hpl
    refine ⟨C74_written hP h, fun o ho => ?_⟩
    have hw : P.cpp.hier.WF := hP.wf
    have hmem : (⟨P.foundGuides o.ctx o.ns o.name o.decl.params, o.decl⟩ : MacroOverride) ∈ P.macros.overriders := List.mem_map.2 ⟨o, ho, rfl⟩
    have hq : ∀ q ∈ o.decl.params, q.Proper ∧ q.InHier P.cpp.hier := hP.proper.2 _ hmem
    obtain ⟨ts, hts, rfl⟩ := MacroSource.elaborate_iff.1 h
    obtain ⟨i, hi⟩ := List.mem_iff_getElem?.1 hmem
    obtain ⟨k, -, hk⟩ := forall₂_get hts hi
    have ht : P.target o = some k := by rw [target, if_pos (List.all_eq_true.1 hpl o ho)]; exact hk
    obtain ⟨-, m, hm, -⟩ := MacroSource.target_iff.1 hk
    exact ⟨k, ⟨m.params, m.ret, P.macros.overridersOf ts k⟩, by simp [List.getElem?_mapIdx, hm], (MacroSource.mem_overridersOf hts).2 ⟨_, hmem, rfl, hk⟩, ht, ((C81_exact hw hq).1 ht).2.2.1⟩
  · cases h

/-- What C74 says of programs then holds. -/
theorem C81_works {cfg : Config} {S : Source} (hP : P.macros.Ok cfg) (h : P.elaborate = some S) :
    WorksFor (fun S p M xs => (AllTogether S.cpp.hier S.uses ∨ ArgsSafe p M.classes xs) ∧ (M.classes.length = 1 ∨ Contiguous M.kinds) ∧ S.Settled M xs) S cfg ∧
    ExecutesFor (fun S p M xs => (AllTogether S.cpp.hier S.uses ∨ ArgsSafe p M.classes xs) ∧ (M.classes.length = 1 ∨ Contiguous M.kinds) ∧ S.Settled M xs) (fun S M => S.Nested M) S cfg := by
  rw [elaborate] at h
  split at h
  · exact ⟨(C74_partial _ _ _ hP h).2.1, (C74_partial _ _ _ hP h).2.2.1⟩
  · cases h

/-! ## Concrete programs -/

/-- `employees` (1) and `sales` (2) are namespaces. -/
def paySpaces : Spaces where
  cls c := if c = 0 then [1] else if c = 1 then [2] else []
  reg _ := [[1, 0]]
  other _ := []
  vptr := [[1, 0]]
  smart _ := [[3]]

/-- In a context with method 0 and no `using`. -/
def plainly : Context where
  methods := [0]
  directives := []
  guides := []
  names := []
  overriders := []

/-- An overrider of `pay` for class `c`, in namespace `n`. -/
def payFor (n : Ns) (c : Cls) (C : Context) : NsOverride := ⟨n, .other 0, ⟨[vp (.cls c)], some (.other 0), c, c⟩, C⟩

def employeePay : NsOverride := payFor [1] 0 plainly

/-- The declarations that precede the overrider for `Salesman` in the example of the documentation. -/
def salesContext : Context := { plainly with overriders := [([1], .other 0, [vp (.cls 0)], some (.other 0))] }

/-- namespaces.adoc: class `Employee` (0) and method `pay` are in namespace `employees`, and `Salesman` (1) is in namespace `sales`, with its overrider. `m` is the namespace of the method. -/
def payroll (m : Ns) (os : List NsOverride) : NsSource where
  cpp := polymorphic zoo
  rtti := rt
  ids := idOf
  uses := []
  spaces := paySpaces
  methods := [⟨m, .other 0, [vp (.cls 0)], some (.other 0)⟩]
  overriders := os

theorem payroll_proper (m : Ns) (os : List NsOverride) {n : Ns} {c : Cls} {C : Context} (hc : zoo.Defined c) : ProperTypes (payroll m os) (payFor n c C) := by
  refine ⟨zoo_wf, fun _ => rfl, ?_, ?_⟩
  · intro x hx
    obtain rfl := List.mem_singleton.1 hx
    refine ⟨show (polymorphic zoo).validMethod [vp (.cls 0)] = true by decide +kernel, fun p hp => ?_⟩
    obtain rfl := List.mem_singleton.1 hp
    exact ⟨.inl ⟨0, rfl⟩, 0, rfl⟩
  · intro q hq
    obtain rfl := List.mem_singleton.1 hq
    exact ⟨⟨.inl ⟨c, rfl⟩, 0, rfl⟩, hc⟩

theorem payroll_documented : List.Forall₂ (fun p q => Documented (polymorphic zoo).hier p q ∧ ¬ Excepted (polymorphic zoo) p q) [vp (.cls 0)] [vp (.cls 1)] :=
  .cons ⟨.inl ⟨0, 1, .value .plain, zoo_derives⟩, by rintro (⟨_, h⟩ | ⟨_, _, h, _⟩) <;> cases h⟩ .nil

theorem payroll_only (m : Ns) (os : List NsOverride) {n : Ns} {C : Context} (hC : C.methods = [0]) :
    (payroll m os).OnlyOne (fun k => k ∈ (payFor n 1 C).ctx.methods ∧ (payroll m os).isNamed (payFor n 1 C).name k = true) (payFor n 1 C).decl.params 0 := by
  refine ⟨⟨by simp [payFor, hC], isNamed_iff.2 ⟨_, rfl, rfl⟩⟩, ⟨_, rfl, show (polymorphic zoo).callable [vp (.cls 0)] [vp (.cls 1)] = true by decide +kernel⟩, ?_⟩
  rintro k ⟨h, -⟩ - - -
  simpa [payFor, hC] using h

/-- The overrider for `Salesman` is added to `pay`: `Employee`, a base of `Salesman`, is in the namespace of the method. In the whole program, both overriders are. -/
example : (payroll [1] []).target (payFor [2] 1 salesContext) = some 0 :=
  C81_partial _ _ _ _ (payroll_proper _ _ ⟨[(0, false)], by simp [zoo]⟩) rfl (by decide +kernel) payroll_documented (payroll_only _ _ rfl)
    ⟨C81_adl (p := vp (.cls 0)) (c := 0) (m := ⟨[1], .other 0, [vp (.cls 0)], some (.other 0)⟩) (by decide) rfl (payroll_documented.imp fun _ _ h => h.1) (by simp) (.inr (.inl ⟨_, _, rfl⟩)) rfl rfl _,
      by simp [payFor, salesContext, plainly], fun ⟨_, _, _, h, _⟩ => by obtain ⟨_, h, -⟩ := Ns.nominated_iff.1 h; simp [payFor, salesContext, plainly] at h⟩

example : ((payroll [1] [employeePay, payFor [2] 1 salesContext]).elaborate.map fun S => S.methods.map fun m => m.overriders.map (·.pf)) = some [[0, 1]] := by decide +kernel

/-- There, the overrider for `Employee` can be named in `employees`; in `sales`, it must be qualified (namespaces.adoc). If the method and this overrider are in the global namespace, it can be named in `sales`
until an overrider is declared there: in that overrider, it must be qualified. -/
theorem C81_salesman : let P := payroll [1] []; let g : Sig := ([vp (.cls 0)], some (.other 0))
    P.overriderNamed salesContext [1] (.other 0) g = some [1] ∧ P.overriderNamed (payFor [2] 1 salesContext).inner [2] (.other 0) g = none ∧
    let P := payroll [] []; let C := { plainly with overriders := [([], .other 0, g)] }
    P.overriderNamed C [2] (.other 0) g = some [] ∧ P.overriderNamed (payFor [2] 1 C).inner [2] (.other 0) g = none := by
  decide +kernel

/-- A method in a namespace that is not that of its classes: an overrider in another namespace is rejected, although the method was declared before, and can be called with the parameters of the overrider. -/
theorem C81_unrelated : (payroll [4] []).target (payFor [2] 1 plainly) = none := by decide +kernel

/-- It is accepted after a `using` declaration of the guide (main_unrelated_namespaces.cpp). -/
example : (payroll [4] []).target (payFor [2] 1 { plainly with guides := [([2], 0)] }) = some 0 := by decide +kernel

/-- It is rejected after a `using` directive that nominates the namespace of the method, in the global namespace (main_using_directive.cpp), or in one that contains it; although the method is found. In other
namespaces, it is accepted. -/
theorem C81_clash : (payroll [1] []).target (payFor [] 1 { plainly with directives := [([], [1])] }) = none ∧ (payroll [1, 2] []).target (payFor [2] 1 { plainly with directives := [([2], [1, 2])] }) = none ∧
    (payroll [4] []).target (payFor [2] 1 { plainly with directives := [([2], [4])] }) = some 0 ∧ (payroll [1] []).target (payFor [] 1 plainly) = some 0 := by
  refine ⟨?_, ?_, by decide +kernel, by decide +kernel⟩
  · refine C81_directive (a := []) (b := [1]) (by simp) (.single (by simp [payFor])) (Ns.nearest_iff.2 (by decide)) (by simp [payFor]) (.inl ⟨0, by simp [payFor, plainly], _, rfl, rfl, rfl⟩)
  · refine C81_directive (a := [2]) (b := [1, 2]) (by simp [payFor]) (.single (by simp [payFor])) (Ns.nearest_iff.2 (by decide)) (by simp [payFor]) (.inl ⟨0, by simp [payFor, plainly], _, rfl, rfl, rfl⟩)

/-- Directives are followed through the namespaces that they nominate, also in cycles: the method is found, and the overrider is rejected if this brings its container to the same namespace. -/
theorem C81_transitive : (payroll [4] []).target (payFor [2] 1 { plainly with directives := [([3], [4]), ([2], [3]), ([4], [2])] }) = some 0 ∧
    (payroll [4] []).target (payFor [2] 1 { plainly with directives := [([2], [3])] }) = none ∧
    (payroll [1] []).target (payFor [] 1 { plainly with directives := [([3], [1]), ([], [3])] }) = none := by
  refine ⟨by decide +kernel, by decide +kernel, ?_⟩
  exact C81_directive (a := []) (b := [1]) (by simp) (.tail (b := [3]) (.single (by simp [payFor])) (by simp [payFor])) (Ns.nearest_iff.2 (by decide)) (by simp [payFor])
    (.inl ⟨0, by simp [payFor, plainly], _, rfl, rfl, rfl⟩)

/-- A method called `next` cannot be called by its name in an overrider; it can in other functions. -/
theorem C81_member : let P : NsSource := { payroll [1] [] with methods := [⟨[1], .next, [vp (.cls 0)], some (.other 0)⟩] }
    P.called plainly [] false .next [vp (.cls 1)] = some 0 ∧ P.called plainly [1] true .next [vp (.cls 1)] = none := by
  decide +kernel

/-- A namespace that has a method of the same name hides those of the enclosing namespaces. -/
theorem C81_hidden : let P : NsSource := { payroll [] [] with spaces := { paySpaces with cls := fun _ => [5] }, methods := [⟨[], .other 0, [vp (.cls 0)], some (.other 0)⟩, ⟨[2], .other 0, [vp (.cls 2)], none⟩] }
    P.target (payFor [2] 1 plainly) = some 0 ∧ P.target (payFor [2] 1 { plainly with methods := [0, 1] }) = none := by
  decide +kernel

/-- C81 does not hold: see `C81_unrelated` and `C81_clash`. -/
theorem C81_refuted : ¬ C81 := by
  intro h
  have := h (payroll [4] []) (payFor [2] 1 plainly) 0 _ (payroll_proper _ _ ⟨[(0, false)], by simp [zoo]⟩) rfl (by decide +kernel) payroll_documented (payroll_only _ _ rfl) trivial
  rw [C81_unrelated] at this
  cases this

/-- Nor for methods that are found by name lookup. -/
theorem C81_found_refuted : ¬ AddedAcross fun P o k => P.Finds o.ctx o.ctx.guides o.ns o.name o.decl.params k := by
  intro h
  have := h (payroll [1] []) (payFor [] 1 { plainly with directives := [([], [1])] }) 0 _ (payroll_proper _ _ ⟨[(0, false)], by simp [zoo]⟩) rfl (by decide +kernel) payroll_documented
    (payroll_only _ _ rfl)
    (C81_adl (p := vp (.cls 0)) (c := 0) (m := ⟨[1], .other 0, [vp (.cls 0)], some (.other 0)⟩) (by decide) rfl (payroll_documented.imp fun _ _ h => h.1) (by simp) (.inr (.inl ⟨_, _, rfl⟩)) rfl rfl _)
  rw [C81_clash.1] at this
  cases this

end Props

end OpenMethod
