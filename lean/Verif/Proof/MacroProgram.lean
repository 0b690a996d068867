import Verif.SpecMacroProgram
import Verif.Props.Macros
import Mathlib.Data.List.Nodup

/-!
# Programs written with macros
-/

namespace OpenMethod

open Spec Props Cpp

theorem mapM_some_iff {α β : Type} {f : α → Option β} : ∀ {l : List α} {l' : List β}, l.mapM f = some l' ↔ List.Forall₂ (fun a b => f a = some b) l l'
  | [], l' => by
    constructor
    · intro h; cases h; exact .nil
    · intro h; cases h; rfl
  | a :: l, l' => by
    rw [List.mapM_cons]
    constructor
    · intro h
      obtain ⟨b, hb, h⟩ := Option.bind_eq_some_iff.1 h
      obtain ⟨bs, hbs, h⟩ := Option.bind_eq_some_iff.1 h
      cases h
      exact .cons hb (mapM_some_iff.1 hbs)
    · intro h
      cases h with
      | cons h1 h2 => simp [h1, mapM_some_iff.2 h2]

theorem forall₂_get_right' {α β : Type} {R : α → β → Prop} {l : List α} {l' : List β} (h : List.Forall₂ R l l') {i : Nat} {b : β} (hb : l'[i]? = some b) : ∃ a, l[i]? = some a ∧ R a b := by
  obtain ⟨a, h1, h2⟩ := forall₂_get h.flip hb
  exact ⟨a, h1, h2⟩

theorem forall₂_exists {α β : Type} {R : α → β → Prop} : ∀ {l : List α}, (∀ a ∈ l, ∃ b, R a b) → ∃ l', List.Forall₂ R l l'
  | [], _ => ⟨[], .nil⟩
  | a :: l, h => by
    obtain ⟨b, hb⟩ := h a (by simp)
    obtain ⟨l', hl⟩ := forall₂_exists (l := l) fun a ha => h a (by simp [ha])
    exact ⟨b :: l', .cons hb hl⟩

namespace MacroSource

variable {P : MacroSource}

/-- The method found is the only one that can be called. -/
theorem lookup_only {found : List Nat} {as : List CT} {k : Nat} (h : P.lookup found as = some k) : (k ∈ found ∧ ∃ m, P.methods[k]? = some m ∧ P.cpp.callable m.params as = true) ∧
    ∀ k' ∈ found, ∀ m', P.methods[k']? = some m' → P.cpp.callable m'.params as = true → k' = k := by
  obtain ⟨ms, hms, h⟩ := Option.bind_eq_some_iff.1 h
  obtain ⟨i, h1, h2⟩ := Option.bind_eq_some_iff.1 h
  have hf := mapM_some_iff.1 hms
  have hget : ∀ {i : Nat} {k : Nat}, found[i]? = some k → ∃ m, P.methods[k]? = some m ∧ ms[i]? = some m.params := by
    intro i k h
    obtain ⟨ps, h1, h2⟩ := forall₂_get hf h
    obtain ⟨m, h3, rfl⟩ := Option.map_eq_some_iff.1 h2
    exact ⟨m, h3, h1⟩
  obtain ⟨⟨ps, h3, h4⟩, h5⟩ := C66_found.1 h1
  obtain ⟨m, h6, h7⟩ := hget h2
  obtain rfl := Option.some.inj (h3.symm.trans h7)
  refine ⟨⟨List.mem_of_getElem? h2, m, h6, h4⟩, fun k' hk' m' hm' hc => ?_⟩
  obtain ⟨j, hj⟩ := List.mem_iff_getElem?.1 hk'
  obtain ⟨m'', h8, h9⟩ := hget hj
  obtain rfl := Option.some.inj (hm'.symm.trans h8)
  obtain rfl := h5 j _ h9 hc
  exact Option.some.inj (hj.symm.trans h2)

/-- Name lookup finds a method once: then this is exact. -/
theorem lookup_iff {found : List Nat} {ms : List (List CT)} (hms : P.parameters found = some ms) (hn : found.Nodup) {as : List CT} {k : Nat} :
    P.lookup found as = some k ↔ (k ∈ found ∧ ∃ m, P.methods[k]? = some m ∧ P.cpp.callable m.params as = true) ∧
      ∀ k' ∈ found, ∀ m', P.methods[k']? = some m' → P.cpp.callable m'.params as = true → k' = k := by
  have hf := mapM_some_iff.1 hms
  have hget : ∀ {i : Nat} {k : Nat}, found[i]? = some k → ∃ m, P.methods[k]? = some m ∧ ms[i]? = some m.params := by
    intro i k h
    obtain ⟨ps, h1, h2⟩ := forall₂_get hf h
    obtain ⟨m, h3, rfl⟩ := Option.map_eq_some_iff.1 h2
    exact ⟨m, h3, h1⟩
  have hinj : ∀ {i j k : Nat}, found[i]? = some k → found[j]? = some k → i = j := by
    intro i j k h1 h2
    have hi := (List.getElem?_eq_some_iff.1 h1).1
    exact (List.getElem?_inj hi hn).1 (h1.trans h2.symm)
  refine ⟨lookup_only, ?_⟩
  rw [show P.lookup found as = (P.cpp.locate ms as).bind (found[·]?) by simp only [lookup, hms]; rfl, Option.bind_eq_some_iff]
  · rintro ⟨⟨hk, m, h1, h2⟩, h3⟩
    obtain ⟨i, hi⟩ := List.mem_iff_getElem?.1 hk
    obtain ⟨m'', h8, h9⟩ := hget hi
    obtain rfl := Option.some.inj (h1.symm.trans h8)
    refine ⟨i, C66_found.2 ⟨⟨_, h9, h2⟩, fun j ps hj hc => ?_⟩, hi⟩
    obtain ⟨k', hk', h4⟩ := forall₂_get_right' hf hj
    obtain ⟨m', h5, rfl⟩ := Option.map_eq_some_iff.1 h4
    obtain rfl := h3 k' (List.mem_of_getElem? hk') m' h5 hc
    exact hinj hk' hi

theorem parameters_of {found : List Nat} (h : ∀ k ∈ found, k < P.methods.length) : ∃ ms, P.parameters found = some ms := by
  obtain ⟨ms, hms⟩ := forall₂_exists (R := fun (k : Nat) ps => P.methods[k]?.map MacroMethod.params = some ps) fun k hk =>
    ⟨(P.methods[k]'(h k hk)).params, by rw [List.getElem?_eq_getElem (h k hk)]; rfl⟩
  exact ⟨ms, mapM_some_iff.2 hms⟩

theorem target_iff {o : MacroOverride} {k : Nat} : P.target o = some k ↔ P.lookup o.found o.decl.params = some k ∧ ∃ m, P.methods[k]? = some m ∧ P.cpp.validOverrider m.params o.decl.params = true := by
  unfold target lookup
  cases hms : P.parameters o.found with
  | none => simp
  | some ms =>
    have hf := mapM_some_iff.1 hms
    simp only [Option.bind_eq_bind, Option.bind_some, Option.bind_eq_some_iff]
    constructor
    · rintro ⟨i, h1, h2⟩
      obtain ⟨ps, h3, h4⟩ := forall₂_get hf h2
      obtain ⟨m, h5, rfl⟩ := Option.map_eq_some_iff.1 h4
      obtain ⟨h6, h7⟩ := (overrides_iff h3).1 h1
      exact ⟨⟨i, h6, h2⟩, m, h5, h7⟩
    · rintro ⟨⟨i, h1, h2⟩, m, h3, h4⟩
      obtain ⟨ps, h5, h6⟩ := forall₂_get hf h2
      rw [h3] at h6
      obtain rfl := Option.some.inj h6
      exact ⟨i, (overrides_iff h5).2 ⟨h1, h4⟩, h2⟩

/-- The overriders, and the methods to which they are added. -/
theorem elaborate_iff {S : Source} : P.elaborate = some S ↔ ∃ ts, List.Forall₂ (fun o t => P.target o = some t) P.overriders ts ∧
    S = { cpp := P.cpp, rtti := P.rtti, ids := P.ids, uses := P.uses, methods := P.methods.mapIdx fun k m => ⟨m.params, m.ret, P.overridersOf ts k⟩ } := by
  unfold elaborate
  simp only [Option.bind_eq_bind, Option.bind_eq_some_iff, mapM_some_iff, Option.some.injEq]
  exact ⟨fun ⟨ts, h1, h2⟩ => ⟨ts, h1, h2.symm⟩, fun ⟨ts, h1, h2⟩ => ⟨ts, h1, h2.symm⟩⟩

theorem related_of_mixed {E : Cpp} {p q : CT} (hr : ∀ u, q = .rref u → ∃ c, u = .cls c) (h : CT.Mixed E p q) : CT.Related E.hier p q := by
  obtain ⟨t, c, d, rfl, ho, hb⟩ := h
  rintro _ ⟨⟩
  refine ⟨c, d, ?_, hb⟩
  cases ho with
  | byRef hk => exact .byRef hk
  | byValue hk => exact .byValue hk
  | rvalue => obtain ⟨_, h⟩ := hr _ rfl; cases h
  | rvalueRef => obtain ⟨_, h⟩ := hr _ rfl; cases h
  | vptr hp => exact .vptr hp
  | vptrRef hp => exact .vptrRef hp
  | vptrByValue hp => exact .vptrByValue hp
  | vptrRvalue => obtain ⟨_, h⟩ := hr _ rfl; cases h

/-- The macro only accepts derived classes for the parameters marked with `virtual_`. -/
theorem related_of_macro {E : Cpp} (hw : E.hier.WF) : ∀ {ps qs : List CT}, (∀ q ∈ qs, q.InHier E.hier) → (∀ u, .rref u ∈ qs → ∃ c, u = .cls c) →
    E.validOverrider ps qs = true → E.callable ps qs = true → List.Forall₂ (CT.Related E.hier) ps qs
  | [], [], _, _, _, _ => .nil
  | p :: ps, q :: qs, hQ, hr, h1, h2 => by
    simp only [validOverrider, callable, Bool.and_eq_true] at h1 h2
    refine .cons ?_ (related_of_macro hw (fun q hq => hQ q (by simp [hq])) (fun u hu => hr u (by simp [hu])) h1.2 h2.2)
    by_cases hp : ∃ t, p = .virt t
    · obtain ⟨t, rfl⟩ := hp
      rcases documented_of_virt hw (hQ q (by simp)) h1.1.2 h2.1 with h | h
      · exact related_of_documented h.1
      · exact related_of_mixed (fun u e => hr u (by simp [e])) h
    · exact related_of_other fun t e => hp ⟨t, e⟩
  | [], q :: qs, _, _, h1, _ => by simp [validOverrider] at h1
  | p :: ps, [], _, _, h1, _ => by simp [validOverrider] at h1

theorem mem_overridersOf {ts : List Nat} (h : List.Forall₂ (fun o t => P.target o = some t) P.overriders ts) {k : Nat} {d : OverrideDecl} :
    d ∈ P.overridersOf ts k ↔ ∃ o ∈ P.overriders, o.decl = d ∧ P.target o = some k := by
  unfold overridersOf
  generalize P.overriders = os at h ⊢
  induction h with
  | nil => simp
  | @cons o t os ts h _ ih =>
    simp only [List.zip_cons_cons, List.filterMap_cons, List.mem_cons, exists_eq_or_imp]
    rw [← ih]
    by_cases ht : t = k
    · subst ht; simp [h, eq_comm]
    · have : P.target o ≠ some k := by rw [h]; simpa using ht
      simp [ht, this]

theorem overridersOf_sublist {ts : List Nat} (h : List.Forall₂ (fun o t => P.target o = some t) P.overriders ts) (k : Nat) : (P.overridersOf ts k).Sublist (P.overriders.map (·.decl)) := by
  unfold overridersOf
  generalize P.overriders = os at h ⊢
  induction h with
  | nil => simp
  | @cons o t os ts h _ ih =>
    simp only [List.zip_cons_cons, List.filterMap_cons, List.map_cons]
    by_cases ht : t = k
    · simp only [ht, if_true]; exact ih.cons_cons _
    · simp only [ht, if_false]; exact ih.cons _

end MacroSource

end OpenMethod
