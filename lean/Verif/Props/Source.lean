import Verif.Proof.Source

/-!
# C63: programs, from their declarations to the calls of methods
-/

namespace OpenMethod

open Spec Props Cpp Examples

namespace Props

/-- What C63 says of a program, for the calls that meet condition `C`. -/
def WorksFor (C : Source → Program → MethodDecl → List Cls → Prop) (S : Source) (cfg : Config) : Prop :=
  ∀ (rs : List ClassInfo) (es : List (RegEvent × Ids)) (L : Alive) (deferred : Bool) (fuel : Nat),
    S.compile = some rs → Alive.History .none es L → S.Loaded rs L → (deferred = true ∨ ∀ e ∈ es, e.2 = S.static rs) → es.length ≤ fuel →
    ∃ g p, Registrars.init.run deferred es = .ok g ∧ g.program deferred (S.decls rs) S.rtti fuel (S.static rs) = some p ∧
      (∀ pl gen, (∃ rep img, install pl false p gen = .ok (rep, img)) ↔ S.Listed) ∧
      ∀ (E : Env) (s s' : RegState) (rep : Report), E.cfg = cfg → E.n2216 = false → Initializes E p s s' rep →
        ∀ (k : Nat) (M : MethodDecl), S.methods[k]? = some M → ∃ m ∈ p.methods, m.id = k ∧
          ∀ args xs types, PassedFor S.cpp.hier p s' M.classes M.kinds args xs → (∀ x ∈ xs, S.cpp.hier.NoRepeat x) → C S p M xs →
            ∃ r, S.Expected M xs r ∧ S.Behaves p s' M args xs (callThunk cfg S.cpp.hier S.rtti s' m args types) r

/-- What C63 says of the calls that meet condition `C`. -/
def Works (C : Source → Program → MethodDecl → List Cls → Prop) : Prop := ∀ (S : Source) (cfg : Config), S.Ok cfg → WorksFor C S cfg

/-- C63: if the compiler accepts the program, and its static objects are constructed, in any order, with those of modules that are loaded and unloaded before, then `initialize` succeeds
exactly if the classes are listed, and calls have the documented outcome on the C++ classes. -/
def C63 : Prop := Works fun _ _ _ _ => True

/-- C63, when the order of registration is supported, virtual parameters are contiguous, and the choice among the applicable overriders is settled by direct
comparisons. -/
theorem C63_partial : Works fun S p M xs => (AllTogether S.cpp.hier S.uses ∨ ArgsSafe p M.classes xs) ∧
    (M.classes.length = 1 ∨ Contiguous M.kinds) ∧ S.Settled M xs := by
  intro S cfg hS rs es L deferred fuel hc hH hL hT hf
  obtain ⟨g, hg, hp⟩ := C54 hH deferred (S.decls rs) S.rtti (S.static rs) hf
  have he : L.program (S.decls rs) S.rtti (fun t => if deferred then S.static rs else t) = S.found rs L := by
    refine Alive.program_eq ?_
    cases hd : deferred with
    | true => exact .inl fun t => by simp
    | false =>
      refine .inr ⟨by funext t; simp, hH.at_ (fun e h => ?_) ⟨by simp [Alive.none], by simp [Alive.none], by simp [Alive.none]⟩⟩
      rcases hT with h' | h'
      · rw [hd] at h'; cases h'
      · exact h' e h
  rw [he] at hp
  refine ⟨g, S.found rs L, hg, hp, fun pl gen => Source.accepted hS hc hL pl gen, ?_⟩
  rintro E s s' rep rfl hn hi k M hk
  have hm := (Source.mem_methods hL).2 ⟨k, M, hk, rfl⟩
  refine ⟨_, hm, rfl, ?_⟩
  rintro args xs types ha hr ⟨hord, hcont, hs⟩
  have e1 : classesOf (S.found rs L) (S.record rs k ((L.overriders k).map (·.1))).vp = M.classes := Source.record_classes hS hc hk _
  have e2 : (S.record rs k ((L.overriders k).map (·.1))).params = M.kinds := Source.record_params hS hk _
  have e3 : (S.record rs k ((L.overriders k).map (·.1))).vp.length = M.classes.length := by rw [← e1, classesOf, List.length_map]
  have hio := Source.inOrder hS hc hL hk
  obtain ⟨r, h1, h2⟩ := C58_settled_partial (hS.good hc hL) (hS.distinct hL) hn (hS.registers hc hL) hS.together hi hm (by rw [e1, e2]; exact ha) hr (by rw [e1]; exact hord)
    (by rw [e3, e2]; exact hcont) (settledBy_in.2 (hio.settled hs)) types
  obtain ⟨i1, i2, i3⟩ := hio.expected (D := S.cpp.hier.Inherits) (xs := xs)
  rw [expectedBy_in] at h1
  cases r with
  | run i =>
    obtain ⟨o, ho, hE⟩ := i1 i h1
    obtain ⟨o', as, ho', h3, h4, h5⟩ := h2
    have hd := List.getElem?_eq_getElem (List.mem_range.1 ((hL.overriders k M hk).subset (List.mem_of_getElem? ho)))
    have hoe : o' = readOverrider (S.decls rs) (S.static rs) k o := by
      simp only [Source.record, readMethod, List.getElem?_map] at ho' ho
      cases h : (L.overriders k)[i]? with
      | none => rw [h] at ho; cases ho
      | some x =>
        rw [h] at ho ho'
        simp only [Option.map_some, Option.some.injEq] at ho ho'
        rw [← ho', ← ho]
    subst hoe
    refine ⟨.run o, hE, _, _, as, hd, by simp [readOverrider, Source.decls, hk, hd], h3, ?_, h5⟩
    rw [Source.override_classes hS hc hk hd, e2] at h4
    exact h4
  | noOverrider => exact ⟨.noOverrider, i2 h1, h2⟩
  | ambiguous => exact ⟨.ambiguous, i3 h1, h2⟩

/-- Being more specific is transitive if there is one virtual parameter, or no multiple inheritance above the arguments. -/
theorem transitive {S : Source} {M : MethodDecl} {xs : List Cls} (hw : S.cpp.hier.WF) (h : xs.length = 1 ∨ ∀ x ∈ xs, S.cpp.hier.Chain x) : S.Transitive M xs := by
  have ht : ∀ a b c, S.cpp.hier.Inherits a b → S.cpp.hier.Inherits b c → S.cpp.hier.Inherits a c := fun _ _ _ h h' => h.trans h'
  have hs : ∀ a b, S.cpp.hier.Inherits a b → S.cpp.hier.Inherits b a → a = b := fun _ _ h h' => (h.antisymm hw h').symm
  exact h.elim (transitiveIn_one ht hs) (transitiveIn_chain ht hs)

/-- Then the choice is settled. -/
theorem settled {S : Source} {M : MethodDecl} {xs : List Cls} (hw : S.cpp.hier.WF) (h : xs.length = 1 ∨ ∀ x ∈ xs, S.cpp.hier.Chain x) : S.Settled M xs :=
  TransitiveIn.settled (transitive hw h)

/-! ## Constructors can run in any order -/

/-- The events of a program that constructs classes `cs`, methods `ms`, and overriders `os`. -/
def loads (T : Ids) (cs ms : List Nat) (os : List (Nat × Nat)) : List (RegEvent × Ids) :=
  (cs.map fun c => (.useClass c, T)) ++ (ms.map fun m => (.declare m, T)) ++ os.map fun o => (.override o.1 o.2, T)

/-- The objects that are alive then. -/
def loaded (T : Ids) (cs ms : List Nat) (os : List (Nat × Nat)) : Alive where
  classes := cs.map (·, T)
  methods := ms.map (·, T)
  overriders m := (os.filter (·.1 = m)).map fun o => (o.2, T)
  stale _ _ := False

theorem history_snoc {L L' L'' : Alive} {es : List (RegEvent × Ids)} {e : RegEvent} {T : Ids} (h : Alive.History L es L') (hs : Alive.Step T L' e L'') :
    Alive.History L (es ++ [(e, T)]) L'' := by
  induction h with
  | nil => exact .cons hs .nil
  | cons h1 _ ih => exact .cons h1 (ih hs)

theorem loads_history (T : Ids) {cs ms : List Nat} {os : List (Nat × Nat)} (hc : cs.Nodup) (hm : ms.Nodup) (ho : os.Nodup) :
    Alive.History .none (loads T cs ms os) (loaded T cs ms os) := by
  induction os using List.reverseRecOn with
  | nil =>
    induction ms using List.reverseRecOn with
    | nil =>
      induction cs using List.reverseRecOn with
      | nil => exact .nil
      | append_singleton cs c ih =>
        have hc' := List.nodup_append.1 hc
        have := history_snoc (ih hc'.1) (.useClass (now := T) (c := c) fun ⟨t, h⟩ => by
          obtain ⟨c', h1, h2⟩ := List.mem_map.1 h
          cases h2
          exact hc'.2.2 c h1 c (by simp) rfl)
        simpa [loads, loaded] using this
    | append_singleton ms m ih =>
      have hm' := List.nodup_append.1 hm
      have := history_snoc (ih hm'.1) (.declare (now := T) (m := m) fun ⟨t, h⟩ => by
        obtain ⟨c', h1, h2⟩ := List.mem_map.1 h
        cases h2
        exact hm'.2.2 m h1 m (by simp) rfl)
      simpa [loads, loaded] using this
  | append_singleton os o ih =>
    have ho' := List.nodup_append.1 ho
    have := history_snoc (ih ho'.1) (.override (now := T) (m := o.1) (o := o.2) (fun ⟨t, h⟩ => by
      obtain ⟨c', h1, h2⟩ := List.mem_map.1 h
      obtain ⟨h3, h4⟩ := List.mem_filter.1 h1
      simp only [decide_eq_true_eq] at h4
      exact ho'.2.2 c' h3 o (by simp) (Prod.ext h4 (Prod.mk.inj h2).1)) (by simp [loaded]))
    have e : loads T cs ms (os ++ [o]) = loads T cs ms os ++ [(.override o.1 o.2, T)] := by simp [loads]
    rw [e]
    convert this using 1
    simp only [loaded, Alive.mk.injEq, true_and, and_true]
    funext m
    by_cases h : o.1 = m
    · subst h; simp [List.filter_append]
    · simp [List.filter_append, h, Function.update_of_ne (Ne.symm h)]

/-! ## Concrete programs -/

/-- Class `n` has type id `n`. -/
def idOf : Option CT → TypeId
  | some (.cls c) => BitVec.ofNat 64 c
  | some _ => 1000
  | none => rt.void

abbrev vpc (c : Cls) : CT := .vptr (.cls c) (.reg 0)

/-- Methods: `1* meet(virtual_ptr<1>, virtual_<1&>, int)` with overriders for classes 1 and 2, 2 and 1, 3 and 3; `f(virtual_<5&>)`; `g(virtual_<2&>)`; and
`int h(virtual_<3&>)` with overriders for classes 3 and 4. -/
def chainMethods : List MethodDecl := [
  ⟨[vpc 1, .virt (.lref (.cls 1)), .other 0], some (.ptr (.cls 1)),
    [⟨[vpc 1, .lref (.cls 2), .other 0], some (.ptr (.cls 1)), 10, 10⟩, ⟨[vpc 2, .lref (.cls 1), .other 0], some (.ptr (.cls 2)), 11, 11⟩,
     ⟨[vpc 3, .lref (.cls 3), .other 0], some (.ptr (.cls 3)), 12, 12⟩]⟩,
  ⟨[.virt (.lref (.cls 5))], none, [⟨[.lref (.cls 5)], none, 50, 50⟩]⟩,
  ⟨[.virt (.lref (.cls 2))], none, [⟨[.lref (.cls 2)], none, 20, 20⟩]⟩,
  ⟨[.virt (.lref (.cls 3))], some (.other 0), [⟨[.lref (.cls 3)], some (.other 0), 30, 30⟩, ⟨[.lref (.cls 4)], some (.other 0), 31, 31⟩]⟩]

/-- These methods, and the classes of `chain5`, listed in several `use_classes`. -/
def chainSource (css : List (List Cls)) : Source where
  cpp := polymorphic chain5
  rtti := rt
  ids := idOf
  uses := css.map uses
  methods := chainMethods

theorem chain5_wf : chain5.WF := wf_of (by decide)

theorem chain5_base {d c : Cls} (h : chain5.isConvertible d c = true) : chain5.Unambiguous d c := (isConvertible_iff chain5_wf).1 h

theorem chainSource_ok {css : List (List Cls)} (hd : directB chain5 (css.map uses) = true)
    (hn : (css.all fun cs => cs.all fun c => chain5.any (·.1 == c)) = true) : (chainSource css).Ok hashed := by
  have hids : ∀ c, chain5.Defined c → (BitVec.ofNat 64 c).toNat = c ∧ BitVec.ofNat 64 c ≠ noType := by
    have : ∀ e ∈ chain5, (BitVec.ofNat 64 e.1).toNat = e.1 ∧ BitVec.ofNat 64 e.1 ≠ noType := by decide +kernel
    rintro c ⟨bs, hc⟩
    exact this _ hc
  have hdef : ∀ cs ∈ css, ∀ c ∈ cs, chain5.Defined c := by
    intro cs h c hc
    simp only [List.all_eq_true] at hn
    exact (defined_iff _ _).1 (hn cs h c hc)
  have hpf : (chainMethods.flatMap (·.overriders)).map (·.pf) |>.Nodup := by decide +kernel
  have hnext : (chainMethods.flatMap (·.overriders)).map (·.next) |>.Nodup := by decide +kernel
  have hret : ∀ m ∈ chainMethods, (∀ t ∈ m.ret, t = .ptr (.cls 1) ∨ t = .other 0) ∧ ∀ o ∈ m.overriders, ∀ t ∈ o.ret, (∃ c ∈ [1, 2, 3], t = .ptr (.cls c)) ∨ t = .other 0 := by decide +kernel
  have hrc : ∀ (t : Option CT) (c : Cls), (∀ u ∈ t, (∃ c ∈ [1, 2, 3], u = .ptr (.cls c)) ∨ u = .other 0) → (chainSource css).ReturnsClass t c → chain5.Defined c := by
    rintro t c h ⟨u, rfl, hu⟩
    rcases h u rfl with ⟨d, hd, rfl⟩ | rfl
    · cases hu
      have : ∀ d ∈ [1, 2, 3], (chain5.any (·.1 == d)) = true := by decide
      exact (defined_iff _ _).1 (this _ hd)
    · cases hu
  have hoth : ∀ t : Option CT, (∀ c, t ≠ some (.cls c)) → (idOf t).toNat = 1000 ∨ (idOf t).toNat = rt.void.toNat := by
    intro t ht
    unfold idOf
    split
    · exact absurd rfl (ht _)
    · exact .inl rfl
    · exact .inr rfl
  have hcomp : ∀ m ∈ chainMethods, ∀ c ∈ m.classes, (chain5.any (·.1 == c)) = true := by decide +kernel
  refine ⟨chain5_wf, ?_, ?_, ?_, ?_, ?_, direct hd, ?_, ?_, ?_, ?_, ?_, rfl, ?_, ?_, hpf, hnext⟩
  · intro m hm
    simp only [chainSource, chainMethods, List.mem_cons, List.not_mem_nil, or_false] at hm
    rcases hm with rfl | rfl | rfl | rfl <;> simp [CT.Proper, vpc]
  · refine fun m hm => ⟨fun t ht => ?_, fun o ho t ht => ?_⟩
    · rcases (hret m hm).1 t ht with rfl | rfl <;> simp [CT.Proper]
    · rcases (hret m hm).2 o ho t ht with ⟨c, _, rfl⟩ | rfl <;> simp [CT.Proper]
  · intro m hm t ht u r
    simp only [chainSource, chainMethods, List.mem_cons, List.not_mem_nil, or_false] at hm
    rcases hm with rfl | rfl | rfl | rfl <;> simp only [List.mem_cons, List.not_mem_nil, or_false] at ht <;> rcases ht with rfl | rfl | rfl <;> simp [vpc]
  · intro m hm t n ht
    simp only [chainSource, chainMethods, List.mem_cons, List.not_mem_nil, or_false] at hm
    rcases hm with rfl | rfl | rfl | rfl <;> simp [vpc] at ht
  · intro m hm o ho
    simp only [chainSource, chainMethods, List.mem_cons, List.not_mem_nil, or_false] at hm
    rcases hm with rfl | rfl | rfl | rfl <;> simp only [List.mem_cons, List.not_mem_nil, or_false] at ho
    · rcases ho with rfl | rfl | rfl
      · exact .cons (related_of_other (by simp)) (.cons (related_of_documented (.inl ⟨_, _, .virt .lref, chain5_base (by decide +kernel)⟩)) (.cons (related_of_other (by simp)) .nil))
      · exact .cons (related_of_other (by simp)) (.cons (related_of_documented (.inl ⟨_, _, .virt .lref, chain5_base (by decide +kernel)⟩)) (.cons (related_of_other (by simp)) .nil))
      · exact .cons (related_of_other (by simp)) (.cons (related_of_documented (.inl ⟨_, _, .virt .lref, chain5_base (by decide +kernel)⟩)) (.cons (related_of_other (by simp)) .nil))
    · subst ho; exact .cons (related_of_documented (.inl ⟨_, _, .virt .lref, chain5_base (by decide +kernel)⟩)) .nil
    · subst ho; exact .cons (related_of_documented (.inl ⟨_, _, .virt .lref, chain5_base (by decide +kernel)⟩)) .nil
    · rcases ho with rfl | rfl <;> exact .cons (related_of_documented (.inl ⟨_, _, .virt .lref, chain5_base (by decide +kernel)⟩)) .nil
  · rintro c ⟨u, hu, hc⟩
    obtain ⟨cs, h, rfl⟩ := List.mem_map.1 hu
    exact hdef cs h c hc
  · exact fun m hm c hc => (defined_iff _ _).1 (hcomp m hm c hc)
  · exact fun m hm => ⟨fun c h => hrc _ c (fun t ht => ((hret m hm).1 t ht).imp (fun e => ⟨1, by decide, e⟩) id) h, fun o ho c h => hrc _ c ((hret m hm).2 o ho) h⟩
  · exact fun c hc => (hids c hc).1
  · intro t ht h
    have : ∀ e ∈ chain5, e.1 ≠ 1000 ∧ e.1 ≠ rt.void.toNat := by decide +kernel
    obtain ⟨bs, hb⟩ := h
    exact (hoth t ht).elim (this _ hb).1 (this _ hb).2
  · rintro u hu c hc
    obtain ⟨cs, h, rfl⟩ := List.mem_map.1 hu
    exact ⟨(hids c (hdef cs h c hc)).1, fun _ => (hids c (hdef cs h c hc)).2⟩
  · rintro u hu v hv c hc d hd e
    obtain ⟨cs, h, rfl⟩ := List.mem_map.1 hu
    obtain ⟨ds, h, rfl⟩ := List.mem_map.1 hv
    exact e

/-- The classes are constructed in the order of the lists, the methods in another order, and the overriders in another order still. -/
theorem chainSource_loaded {css : List (List Cls)} {rs : List ClassInfo} (T : Ids) (n : Nat) (hn : rs.length = n) :
    (chainSource css).Loaded rs (loaded T (List.range n) [1, 2, 3, 0] [(2, 0), (0, 2), (3, 0), (0, 0), (1, 0), (0, 1), (3, 1)]) := by
  subst hn
  refine ⟨by simp [loaded, Function.comp_def], ?_, ?_⟩
  · simp only [loaded, List.map_map, Function.comp_def, List.map_id']
    change List.Perm _ (List.range 4)
    decide +kernel
  · intro k m hk
    have hlt := (List.getElem?_eq_some_iff.1 hk).1
    change k < 4 at hlt
    have : k = 0 ∨ k = 1 ∨ k = 2 ∨ k = 3 := by omega
    rcases this with rfl | rfl | rfl | rfl <;> cases hk <;> simp only [loaded, List.map_map, Function.comp_def] <;> decide +kernel

/-- The objects of the program, in this order. -/
def chainAlive (css : List (List Cls)) (rs : List ClassInfo) (n : Nat) : Alive :=
  loaded ((chainSource css).static rs) (List.range n) [1, 2, 3, 0] [(2, 0), (0, 2), (3, 0), (0, 0), (1, 0), (0, 1), (3, 1)]

/-- The program found by `initialize`. -/
theorem chainSource_found {C : Source → Program → MethodDecl → List Cls → Prop} {css : List (List Cls)} {rs : List ClassInfo} (hC : WorksFor C (chainSource css) hashed)
    (hc : (chainSource css).compile = some rs) :
    ∀ (E : Env) (s s' : RegState) (rep : Report), E.cfg = hashed → E.n2216 = false → Initializes E ((chainSource css).found rs (chainAlive css rs rs.length)) s s' rep →
      ∀ (k : Nat) (M : MethodDecl), chainMethods[k]? = some M → ∃ m ∈ ((chainSource css).found rs (chainAlive css rs rs.length)).methods, m.id = k ∧
        ∀ args xs types, PassedFor chain5 ((chainSource css).found rs (chainAlive css rs rs.length)) s' M.classes M.kinds args xs → (∀ x ∈ xs, chain5.NoRepeat x) →
          C (chainSource css) ((chainSource css).found rs (chainAlive css rs rs.length)) M xs →
          ∃ r, (chainSource css).Expected M xs r ∧
            (chainSource css).Behaves ((chainSource css).found rs (chainAlive css rs rs.length)) s' M args xs (callThunk hashed chain5 rt s' m args types) r := by
  have hH := loads_history ((chainSource css).static rs) (cs := List.range rs.length) (ms := [1, 2, 3, 0]) (os := [(2, 0), (0, 2), (3, 0), (0, 0), (1, 0), (0, 1), (3, 1)])
    List.nodup_range (by decide) (by decide)
  have hT : ∀ e ∈ loads ((chainSource css).static rs) (List.range rs.length) [1, 2, 3, 0] [(2, 0), (0, 2), (3, 0), (0, 0), (1, 0), (0, 1), (3, 1)], e.2 = (chainSource css).static rs := by
    intro e he
    simp only [loads, List.mem_append, List.mem_map] at he
    rcases he with (⟨_, _, rfl⟩ | ⟨_, _, rfl⟩) | ⟨_, _, rfl⟩ <;> rfl
  obtain ⟨g, p, hg, hp, _, h⟩ := hC rs _ _ false _ hc hH (chainSource_loaded _ _ rfl) (.inr hT) (le_refl _)
  obtain ⟨g', hg', hp'⟩ := C54 hH false ((chainSource css).decls rs) rt ((chainSource css).static rs) (le_refl _)
  obtain rfl := Res.ok.inj (hg.symm.trans hg')
  obtain rfl : (chainSource css).found rs (chainAlive css rs rs.length) = p := by
    refine Option.some.inj (Eq.trans (Eq.symm ?_) hp)
    rw [show (chainSource css).rtti = rt from rfl, hp']
    refine congrArg some (Alive.program_eq (.inr ⟨by funext t; simp, ?_⟩))
    exact hH.at_ hT ⟨by simp [Alive.none], by simp [Alive.none], by simp [Alive.none]⟩
  exact h

/-- C63_partial applies to a program with one `use_classes`; this call to `meet` is ambiguous. -/
example : ∃ p s rep, Initializes (env hashed) p .init s rep ∧ ∃ m ∈ p.methods, m.id = 0 ∧ ∃ M, chainMethods[0]? = some M ∧
    ∃ r, (chainSource [[5, 4, 3, 2, 1]]).Expected M [2, 5] r ∧
      (chainSource [[5, 4, 3, 2, 1]]).Behaves p s M [.virt (refArg .ref 2 [2, 1]), .virt (refArg .ref 5 [5, 4, 3, 2, 1]), .other 9] [2, 5]
        (callThunk hashed chain5 rt s m [.virt (refArg .ref 2 [2, 1]), .virt (refArg .ref 5 [5, 4, 3, 2, 1]), .other 9] []) r := by
  have hc : (chainSource [[5, 4, 3, 2, 1]]).compile = some allBases := by decide +kernel
  obtain ⟨x, hx⟩ : ∃ x, initOf (env hashed) ((chainSource [[5, 4, 3, 2, 1]]).found allBases (chainAlive [[5, 4, 3, 2, 1]] allBases allBases.length)) .init = some x := by
    rw [← Option.isSome_iff_exists]
    decide +kernel
  have hi := initOf_eq hx
  obtain ⟨m, hm, h0, h⟩ := chainSource_found (C63_partial _ _ (chainSource_ok (by decide +kernel) (by decide +kernel))) hc _ _ _ _ rfl rfl hi 0 _ rfl
  refine ⟨_, _, _, hi, m, hm, h0, _, rfl, h _ [2, 5] [] ?_ ?_ ⟨.inl (allTogether_one _), .inr ⟨0, 2, 1, rfl⟩, settled chain5_wf (.inr ?_)⟩⟩
  · exact .virt (refers chain5_wf .ref ⟨cls 2 [1], by decide +kernel, rfl⟩ (by decide +kernel))
      (.virt (refers chain5_wf .ref ⟨cls 5 [4, 3, 2, 1], by decide +kernel, rfl⟩ (by decide +kernel)) (.other _ .nil))
  · intro x hx
    rcases List.mem_cons.1 hx with rfl | hx
    · exact noRepeat chain5_wf (by decide +kernel)
    · obtain rfl := List.mem_singleton.1 hx
      exact noRepeat chain5_wf (by decide +kernel)
  · intro x hx
    rcases List.mem_cons.1 hx with rfl | hx
    · exact chain chain5_wf ((defined_iff _ _).1 (by decide)) (by decide +kernel)
    · obtain rfl := List.mem_singleton.1 hx
      exact chain chain5_wf ((defined_iff _ _).1 (by decide)) (by decide +kernel)

/-- The classes are listed as documented, in an order that the library does not support. -/
def lateLists : List (List Cls) := [[5, 4], [3, 2], [2, 1], [4, 3]]

/-- In this program, a call reaches undefined behaviour. -/
theorem chain_late : ¬ WorksFor (fun _ _ _ _ => True) (chainSource lateLists) hashed := by
  intro hC
  have hc : (chainSource lateLists).compile = some lateBases := by decide +kernel
  obtain ⟨x, hx, hr⟩ : ∃ x, initOf (env hashed) ((chainSource lateLists).found lateBases (chainAlive lateLists lateBases lateBases.length)) .init = some x ∧
      ∀ m ∈ ((chainSource lateLists).found lateBases (chainAlive lateLists lateBases lateBases.length)).methods, m.id = 1 →
        callThunk hashed chain5 rt x.1 m [.virt (refArg .ref 5 [5])] [] = .ub := by
    obtain ⟨x, hx⟩ : ∃ x, initOf (env hashed) ((chainSource lateLists).found lateBases (chainAlive lateLists lateBases lateBases.length)) .init = some x := by
      rw [← Option.isSome_iff_exists]
      decide +kernel
    refine ⟨x, hx, fun m hm h1 => ?_⟩
    have : ∀ m ∈ ((chainSource lateLists).found lateBases (chainAlive lateLists lateBases lateBases.length)).methods, m.id = 1 →
        thunkAfter (env hashed) chain5 ((chainSource lateLists).found lateBases (chainAlive lateLists lateBases lateBases.length)) m [.virt (refArg .ref 5 [5])] = some .ub := by
      decide +kernel
    have := this m hm h1
    rw [thunkAfter, hx] at this
    exact Option.some.inj this
  have hi := initOf_eq hx
  obtain ⟨m, hm, h0, h⟩ := chainSource_found hC hc _ _ _ _ rfl rfl hi 1 _ rfl
  obtain ⟨r, _, h2⟩ := h [.virt (refArg .ref 5 [5])] [5] [] (.virt (refers chain5_wf .ref ⟨cls 5 [4], by decide +kernel, rfl⟩ (by decide +kernel)) .nil)
    (fun x hx => by obtain rfl := List.mem_singleton.1 hx; exact noRepeat chain5_wf (by decide +kernel)) trivial
  rw [hr m hm h0] at h2
  cases r with
  | run i => obtain ⟨_, _, _, _, _, e, _⟩ := h2; cases e
  | noOverrider => obtain ⟨_, _, e⟩ := h2; cases e
  | ambiguous => obtain ⟨_, _, e⟩ := h2; cases e

/-- C63 does not hold without the condition on the order, as C58. -/
theorem C63_refuted : ¬ C63 := fun h => chain_late (h _ _ (chainSource_ok (by decide +kernel) (by decide +kernel)))

end Props

end OpenMethod
