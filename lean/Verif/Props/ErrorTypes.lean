import Verif.SpecErrorTypes
import Verif.Proof.Params
import Verif.Props.Policies

/-! # C94: errors reach the error handler as what they are. C95: what exceptions of `throw_error_handler` can be caught as -/

namespace OpenMethod.Props

open ErrorTypes Policies Hier

variable {H more : Hier} {V : List Cls} {c d e w : Cls}

/-! ## The list of errors -/

theorem errorVariantAux_eq (l : List Cls) (es : List (Option (List Cls))) : errorVariantAux l es = l ++ es.flatMap fun o => o.getD [] := by
  induction es generalizing l with
  | nil => simp [errorVariantAux]
  | cons o es ih => cases o <;> simp [errorVariantAux, ih]

theorem mem_errorVariant {α : Type} {errors : α → Option (List Cls)} {ps : List α} : e ∈ errorVariant errors ps ↔ Reported errors ps e := by
  unfold errorVariant Reported
  rw [errorVariantAux_eq, List.mem_append, List.mem_flatMap]
  refine or_congr Iff.rfl ⟨?_, ?_⟩
  · rintro ⟨o, ho, he⟩
    obtain ⟨p, hp, rfl⟩ := List.mem_map.1 ho
    cases h : errors p with
    | none => rw [h] at he; cases he
    | some es => rw [h] at he; exact ⟨p, hp, es, h, he⟩
  · rintro ⟨p, hp, es, h, he⟩
    exact ⟨errors p, List.mem_map.2 ⟨p, hp, rfl⟩, by rw [h]; exact he⟩

theorem errorVariant_nodup {α : Type} {errors : α → Option (List Cls)} {ps : List α} (hn : ps.Nodup) (hl : Lists errors ps) : (errorVariant errors ps).Nodup := by
  unfold errorVariant
  rw [errorVariantAux_eq, List.nodup_append]
  refine ⟨by decide, ?_, ?_⟩
  · rw [List.nodup_flatMap]
    refine ⟨?_, ?_⟩
    · intro o ho
      obtain ⟨p, hp, rfl⟩ := List.mem_map.1 ho
      cases h : errors p with
      | none => exact List.nodup_nil
      | some es => exact hl.nodup p hp es h
    · rw [List.pairwise_map]
      refine List.Pairwise.imp_of_mem ?_ hn
      intro p q hp hq hne x hx hx'
      cases h : errors p with
      | none => rw [h] at hx; cases hx
      | some es =>
        cases h' : errors q with
        | none => rw [h'] at hx'; cases hx'
        | some fs =>
          rw [h] at hx; rw [h'] at hx'
          exact hl.apart p hp q hq es fs h h' hne x hx hx'
  · rintro a ha b hb rfl
    obtain ⟨o, ho, hb⟩ := List.mem_flatMap.1 hb
    obtain ⟨p, hp, rfl⟩ := List.mem_map.1 ho
    cases h : errors p with
    | none => rw [h] at hb; cases hb
    | some es => rw [h] at hb; exact hl.others p hp es h a hb ha

/-! ## The choice of the alternative -/

theorem better_iff (hw : H.WF) (hd : H.Defined c) : better H c d = true ↔ c ≠ d ∧ H.Inherits c d := by
  unfold better
  rw [Bool.and_eq_true, isBaseOf_iff hw hd, decide_eq_true_iff]

theorem count_one {l : List Cls} {i : Nat} (hi : l[i]? = some d) (hu : ∀ j, l[j]? = some d → j = i) : l.count d = 1 := by
  induction l generalizing i with
  | nil => simp at hi
  | cons a l ih =>
    cases i with
    | zero =>
      obtain rfl : a = d := by simpa using hi
      rw [List.count_cons_self, Nat.add_eq_right, List.count_eq_zero]
      intro hm
      obtain ⟨j, hj⟩ := List.mem_iff_getElem?.1 hm
      exact absurd (hu (j + 1) (by simpa using hj)) (by omega)
    | succ i =>
      have ha : a ≠ d := by
        rintro rfl
        exact absurd (hu 0 rfl) (by omega)
      rw [List.count_cons_of_ne ha]
      refine ih (i := i) (by simpa using hi) fun j hj => ?_
      have := hu (j + 1) (by simpa using hj)
      omega

theorem one_of_count {l : List Cls} (h : l.count d = 1) {i j : Nat} (hi : l[i]? = some d) (hj : l[j]? = some d) : i = j := by
  induction l generalizing i j with
  | nil => simp at hi
  | cons a l ih =>
    by_cases ha : a = d
    · subst ha
      rw [List.count_cons_self, Nat.add_eq_right, List.count_eq_zero] at h
      have key : ∀ k, (a :: l)[k]? = some a → k = 0 := by
        intro k hk
        cases k with
        | zero => rfl
        | succ k => exact absurd (List.mem_iff_getElem?.2 ⟨k, by simpa using hk⟩) h
      rw [key i hi, key j hj]
    · rw [List.count_cons_of_ne ha] at h
      cases i with
      | zero => exact absurd (by simpa using hi) ha
      | succ i =>
        cases j with
        | zero => exact absurd (by simpa using hj) ha
        | succ j =>
          have := ih h (i := i) (j := j) (by simpa using hi) (by simpa using hj)
          rw [this]

/-- C94, exactly: which alternative is chosen, for all lists of error classes, and all errors. In all other cases the program is rejected. -/
theorem C94_exact (hw : H.WF) : handed H V e = some d ↔ Closest H V e d := by
  have hv : ∀ c i, (c, i) ∈ V.zipIdx.filter (fun x => H.isConvertible e x.1) ↔ V[i]? = some c ∧ H.Unambiguous e c := by
    intro c i
    rw [List.mem_filter, isConvertible_iff hw, List.mem_zipIdx_iff_getElem?]
  have hdef : ∀ {c}, H.Unambiguous e c → H.Defined c := fun h => h.inherits.defined hw h.defined
  unfold handed ErrorTypes.select
  simp only [Option.map_eq_some_iff, Prod.exists]
  constructor
  · rintro ⟨d, i, hi, rfl⟩
    obtain ⟨hi1, hi2⟩ := (hv d i).1 (List.mem_of_find?_eq_some hi)
    have hall := List.find?_some (a := (d, i)) hi
    simp only [List.all_eq_true, Prod.forall, Bool.or_eq_true, decide_eq_true_eq, better_iff hw (hdef hi2)] at hall
    refine ⟨count_one hi1 fun j hj => ?_, hi2, fun c hc hu => ?_⟩
    · rcases hall d j ((hv d j).2 ⟨hj, hi2⟩) with h | h
      · exact h
      · exact absurd rfl h.1
    · obtain ⟨j, hj⟩ := List.mem_iff_getElem?.1 hc
      rcases hall c j ((hv c j).2 ⟨hj, hu⟩) with rfl | h
      · rw [hi1] at hj
        obtain rfl := Option.some.inj hj
        exact .refl
      · exact h.2
  · rintro ⟨h1, h2, h3⟩
    have hm : d ∈ V := List.count_pos_iff.1 (by omega)
    obtain ⟨i, hi⟩ := List.mem_iff_getElem?.1 hm
    have good : ∀ c j, (c, j) ∈ V.zipIdx.filter (fun x => H.isConvertible e x.1) → j = i ∨ d ≠ c ∧ H.Inherits d c := by
      intro c j hj
      obtain ⟨hj1, hj2⟩ := (hv c j).1 hj
      by_cases hc : d = c
      · subst hc; exact .inl (one_of_count h1 hj1 hi)
      · exact .inr ⟨hc, h3 c (List.mem_iff_getElem?.2 ⟨j, hj1⟩) hj2⟩
    have hsome : ((V.zipIdx.filter fun x => H.isConvertible e x.1).find? fun x =>
        (V.zipIdx.filter fun x => H.isConvertible e x.1).all fun y => decide (y.2 = x.2) || better H x.1 y.1).isSome := by
      rw [List.find?_isSome]
      refine ⟨(d, i), (hv d i).2 ⟨hi, h2⟩, ?_⟩
      simp only [List.all_eq_true, Prod.forall, Bool.or_eq_true, decide_eq_true_eq, better_iff hw (hdef h2)]
      exact good
    obtain ⟨⟨c, j⟩, hf⟩ := Option.isSome_iff_exists.1 hsome
    obtain ⟨hj1, hj2⟩ := (hv c j).1 (List.mem_of_find?_eq_some hf)
    have hall := List.find?_some (a := (c, j)) hf
    simp only [List.all_eq_true, Prod.forall, Bool.or_eq_true, decide_eq_true_eq, better_iff hw (hdef hj2)] at hall
    have hcd : c = d := by
      rcases hall d i ((hv d i).2 ⟨hi, h2⟩) with rfl | h
      · rw [hi] at hj1; exact (Option.some.inj hj1).symm
      · exact h.2.antisymm hw (h3 c (List.mem_iff_getElem?.2 ⟨j, hj1⟩) hj2) |>.symm
    subst hcd
    exact ⟨c, j, hf, rfl⟩

/-- C94 for an error whose class is listed: the handler receives it as it is, if the class is listed once; otherwise, the program is rejected. -/
theorem C94_listed (hw : H.WF) (hd : H.Defined e) (he : e ∈ V) : handed H V e = if V.count e = 1 then some e else none := by
  split
  · next h => exact (C94_exact hw).2 ⟨h, Hier.unambiguous_self hw hd, fun c _ hu => hu.inherits⟩
  · next h =>
    cases hh : handed H V e with
    | none => rfl
    | some d =>
      obtain ⟨h1, h2, h3⟩ := (C94_exact hw).1 hh
      have := (h3 e he (Hier.unambiguous_self hw hd)).antisymm hw h2.inherits
      subst this
      exact absurd h1 h

/-- C94 for an error whose class is not listed: the handler receives at most a part of it. -/
theorem C94_unlisted (hw : H.WF) (he : e ∉ V) (h : handed H V e = some d) : d ≠ e ∧ H.Inherits e d := by
  obtain ⟨h1, h2, -⟩ := (C94_exact hw).1 h
  refine ⟨?_, h2.inherits⟩
  rintro rfl
  exact he (List.count_pos_iff.1 (by omega))

/-- C94 in full. In a registry made from another one by adding policies: each error that the library or a policy can report reaches the error handler as an error of its class. -/
def C94 : Prop :=
  ∀ (α : Type) (_ : DecidableEq α) (U : Universe α), Rooted U → ∀ (ps new : List α), OnePerCategory U ps → OnePerCategory U new →
    ∀ errors : α → Option (List Cls), Lists errors (ps ++ new) → ∀ H : Hier, Extends H →
      ∀ e, H.Defined e → Reported errors (withPolicies U ps new) e → handed H (errorVariant errors (withPolicies U ps new)) e = some e

theorem nodup_of_one {α : Type} [DecidableEq α] {U : Universe α} {ps : List α} (h : OnePerCategory U ps) : ps.Nodup := List.Nodup.of_map _ h

theorem lists_subset {α : Type} {errors : α → Option (List Cls)} {ps qs : List α} (h : Lists errors ps) (hs : ∀ p ∈ qs, p ∈ ps) : Lists errors qs where
  nodup p hp := h.nodup p (hs p hp)
  others p hp := h.others p (hs p hp)
  apart p hp q hq := h.apart p (hs p hp) q (hs q hq)

theorem mem_with {α : Type} [DecidableEq α] {U : Universe α} (new : List α) : ∀ ps : List α, ∀ p ∈ withPolicies U ps new, p ∈ ps ++ new := by
  induction new with
  | nil => intro ps p hp; simpa [withPolicies] using hp
  | cons n new ih =>
    intro ps p hp
    have := ih _ p hp
    rw [List.mem_append] at this
    rcases this with h | h
    · rcases mem_add h with h | rfl <;> simp [*]
    · simp [h]

/-- C94, for registries in which no policy appears twice. -/
theorem C94_once {α : Type} {errors : α → Option (List Cls)} {ps : List α} (hn : ps.Nodup) (hl : Lists errors ps) (hw : H.WF) (hd : H.Defined e) (he : Reported errors ps e) :
    handed H (errorVariant errors ps) e = some e := by
  rw [C94_listed hw hd (mem_errorVariant.2 he), if_pos]
  exact List.count_eq_one_of_mem (errorVariant_nodup hn hl) (mem_errorVariant.2 he)

/-- C94, if the added policies are not in the registry yet. -/
theorem C94_partial {α : Type} [DecidableEq α] {U : Universe α} (hr : Rooted U) {ps new : List α} (ho : OnePerCategory U ps) (hn : OnePerCategory U new) (hnew : ∀ p ∈ new, p ∉ ps)
    {errors : α → Option (List Cls)} (hl : Lists errors (ps ++ new)) (hH : Extends H) (hd : H.Defined e) (he : Reported errors (withPolicies U ps new) e) :
    handed H (errorVariant errors (withPolicies U ps new)) e = some e :=
  C94_once (nodup_of_one (C40_partial hr new ps ho hn hnew).2.2) (lists_subset hl (mem_with new ps)) hH.1 hd he

/-- The lists of the library (fast_perfect_hash.hpp 69). -/
def libErrors : Lib → Option (List Cls)
  | .fastPerfectHash => some [9]
  | _ => none

theorem libErrors_lists (ps : List Lib) : Lists libErrors ps where
  nodup p _ es h := by cases p <;> cases h; decide
  others p _ es h := by cases p <;> cases h; decide
  apart p _ q _ es fs h h' hne := by cases p <;> cases h; cases q <;> cases h'; exact absurd rfl hne

theorem stock_wf : stock.WF := by
  simp [stock, Hier.WF, Hier.Defined]

/-- C94 does not hold: in `default_registry::with<fast_perfect_hash>`, `search_error` is twice in `error_variant`, and `initialize` is rejected by the compiler (see C40). -/
theorem C94_refuted : ¬ C94 := by
  intro h
  have := h Lib inferInstance lib lib_rooted defaultPolicies [.fastPerfectHash] (by decide) (by decide) libErrors (libErrors_lists _) stock ⟨stock_wf, [], rfl⟩ 9 ⟨_, List.mem_cons_self⟩
    (.inr ⟨.fastPerfectHash, by decide, [9], rfl, by decide⟩)
  exact absurd this (by decide +kernel)

/-- The errors of the library, in all registries made of its policies: each reaches the handler as what it is. -/
theorem C94_library {ps : List Lib} (ho : OnePerCategory lib ps) (hH : Extends H) (e : Err) (he : ∀ a b, e = .searchError a b → .fastPerfectHash ∈ ps) :
    handed H (errorVariant libErrors ps) (classOf e) = some (classOf e) := by
  obtain ⟨hw, more, rfl⟩ := hH
  have hdef : ∀ c, stock.Defined c → (more ++ stock).Defined c := fun c ⟨bs, h⟩ => ⟨bs, List.mem_append_right _ h⟩
  refine C94_once (nodup_of_one ho) (libErrors_lists ps) hw (hdef _ ?_) ?_
  · cases e <;> simp [classOf, stock, Hier.Defined]
  · cases e with
    | searchError a b => exact .inr ⟨_, he a b rfl, [9], rfl, by simp [classOf]⟩
    | _ => exact .inl (by simp [classOf, always])

/-- A case of `C94_library` and `C94_partial`: a registry with a policy of each category. -/
example : handed stock (errorVariant libErrors (withPolicies lib defaultPolicies [.indirectVptr, .vptrMap, .runtimeChecks])) 9 = some 9 := by decide +kernel

/-! An error class `12` of the program, derived from `missing_class`; `13`, derived from `no_overrider` and `ambiguous_call`; `14` from `search_error`; and `15`, from `search_error` and `std::runtime_error`. -/
def moreErrors : Hier := [(15, [(9, false), (11, false)]), (14, [(9, false)]), (13, [(6, false), (7, false)]), (12, [(3, false)])] ++ stock

theorem moreErrors_wf : moreErrors.WF := by simp [moreErrors, stock, Hier.WF, Hier.Defined]

/-- Cases of `C94_exact`: a policy that does not list its errors. The first is sliced, the second rejected; the third is sliced if there is a `fast_perfect_hash`, and otherwise rejected. -/
example : handed moreErrors (errorVariant libErrors defaultPolicies) 12 = some 3 ∧ handed moreErrors (errorVariant libErrors defaultPolicies) 13 = none ∧
    handed moreErrors (errorVariant libErrors defaultPolicies) 14 = some 9 ∧ handed moreErrors (errorVariant libErrors [.stdRtti, .vptrMap]) 14 = none := by decide +kernel

/-! ## Exceptions -/

theorem base_append (hw : Hier.WF (more ++ H)) (hc : H.Defined c) {b : Cls} {v : Bool} : Hier.Base (more ++ H) c b v ↔ H.Base c b v := by
  induction more with
  | nil => rfl
  | cons x more ih =>
    obtain ⟨d, bs⟩ := x
    have hcd : c ≠ d := by
      rintro rfl
      obtain ⟨cs, h⟩ := hc
      exact hw.2.1 ⟨cs, List.mem_append_right _ h⟩
    have hw' : Hier.WF ((d, bs) :: (more ++ H)) := hw
    rw [List.cons_append, Hier.base_cons hw', if_neg hcd, ih hw'.1]

theorem _root_.OpenMethod.ErrorTypes.Extends.defined (hH : Extends H) (hc : stock.Defined c) : H.Defined c := by
  obtain ⟨_, more, rfl⟩ := hH
  obtain ⟨bs, h⟩ := hc
  exact ⟨bs, List.mem_append_right _ h⟩

theorem _root_.OpenMethod.ErrorTypes.Extends.runtime (hH : Extends H) : H.Defined runtimeError := hH.defined (by simp [stock, Hier.Defined, runtimeError])

theorem _root_.OpenMethod.ErrorTypes.Extends.exception (hH : Extends H) : H.Defined stdException := hH.defined (by simp [stock, Hier.Defined, stdException])

/-- What `std::runtime_error` derives from. -/
theorem runtime_base (hH : Extends H) {b : Cls} {v : Bool} : H.Base runtimeError b v ↔ b = stdException ∧ v = false := by
  obtain ⟨hw, more, rfl⟩ := hH
  rw [base_append hw (by simp [stock, Hier.Defined, runtimeError])]
  simp [stock, Hier.Base, runtimeError, stdException]

theorem exception_base (hH : Extends H) {b : Cls} {v : Bool} : ¬ H.Base stdException b v := by
  obtain ⟨hw, more, rfl⟩ := hH
  rw [base_append hw (by simp [stock, Hier.Defined, stdException])]
  simp [stock, Hier.Base, stdException]

theorem runtime_path (hH : Extends H) {σ : Path} : H.Subobject runtimeError σ ↔ σ = [runtimeError] ∨ σ = [runtimeError, stdException] := by
  have hd : H.Defined runtimeError := hH.runtime
  have hx : H.Defined stdException := hH.exception
  constructor
  · rintro (h | ⟨v, hv, -⟩)
    · cases h with
      | self => exact .inl rfl
      | base hb h =>
        obtain ⟨rfl, -⟩ := (runtime_base hH).1 hb
        cases h with
        | self => exact .inr rfl
        | base hb _ => exact absurd hb (exception_base hH)
    · cases hv with
      | direct hb => exact absurd ((runtime_base hH).1 hb).2 (by decide)
      | step hb h =>
        obtain ⟨rfl, -⟩ := (runtime_base hH).1 hb
        cases h with
        | direct hb => exact absurd hb (exception_base hH)
        | step hb _ => exact absurd hb (exception_base hH)
  · rintro (rfl | rfl)
    · exact .inl (.self hd)
    · exact .inl (.base ((runtime_base hH).2 ⟨rfl, rfl⟩) (.self hx))

theorem runtime_inherits (hH : Extends H) {c : Cls} : H.Inherits runtimeError c ↔ c = runtimeError ∨ c = stdException := by
  have hd : H.Defined runtimeError := hH.runtime
  constructor
  · intro h
    obtain ⟨σ, h1, h2⟩ := h.subobject hH.1 hd
    rcases (runtime_path hH).1 h1 with rfl | rfl
    · exact .inl (Option.some.inj h2).symm
    · exact .inr (Option.some.inj h2).symm
  · rintro (rfl | rfl)
    · exact .refl
    · exact .single ⟨false, (runtime_base hH).2 ⟨rfl, rfl⟩⟩

/-- A path that begins at a virtual base does not begin at the class. -/
theorem vpath_ne_path (hw : H.WF) {v : Cls} {σ : Path} (hv : H.VBase e v) (h : H.IsPath v σ) (h' : H.IsPath e σ) : False := by
  have := h.head.symm.trans h'.head
  obtain rfl := Option.some.inj this
  obtain ⟨rank, hr⟩ := hw.rank
  have key : ∀ {a b}, H.VBase a b → rank b < rank a := by
    intro a b h
    induction h with
    | direct h => exact hr _ _ _ h
    | step h _ ih => exact ih.trans (hr _ _ _ h)
  exact Nat.lt_irrefl _ (key hv)

theorem wrap_wf (hH : Extends H) (hw : ¬ H.Defined w) (he : H.Defined e) : (wrap H w e).WF := by
  refine ⟨hH.1, hw, ?_⟩
  simp only [List.mem_cons, List.not_mem_nil, or_false, forall_eq_or_imp, forall_eq]
  exact ⟨he, hH.runtime⟩

/-- The parts of the exception: those of the error and of `std::runtime_error`. -/
theorem wrap_subobject (hH : Extends H) (hw : ¬ H.Defined w) (he : H.Defined e) {σ : Path} :
    (wrap H w e).Subobject w σ ↔ σ = [w] ∨ (∃ τ, H.IsPath e τ ∧ σ = w :: τ) ∨ (∃ v, H.VBase e v ∧ H.IsPath v σ) ∨ ∃ τ, H.Subobject runtimeError τ ∧ σ = w :: τ := by
  have W := wrap_wf hH hw he
  have hr : H.Defined runtimeError := hH.runtime
  have hne : ∀ {c}, H.Defined c → c ≠ w := by rintro c hc rfl; exact hw hc
  have hb : ∀ {b v}, (wrap H w e).Base w b v ↔ (b = e ∨ b = runtimeError) ∧ v = false := by
    intro b v
    unfold wrap
    rw [Hier.base_cons W, if_pos rfl]
    simp only [List.mem_cons, Prod.mk.injEq, List.not_mem_nil, or_false]
    tauto
  have hp : ∀ {c τ}, H.Defined c → ((wrap H w e).IsPath c τ ↔ H.IsPath c τ) := fun hc => Hier.isPath_cons W (hne hc)
  have hvb : ∀ {c v}, H.Defined c → ((wrap H w e).VBase c v ↔ H.VBase c v) := fun hc => Hier.vbase_cons W (hne hc)
  have nov : ∀ v, ¬ H.VBase runtimeError v := by
    intro v hv
    have : H.Defined v := hv.inherits.defined hH.1 hr
    have h1 := (runtime_path hH).1 (.inr ⟨v, hv, .self this⟩)
    rcases h1 with h1 | h1
    · obtain rfl : v = runtimeError := by simpa using h1
      have := hv
      cases this with
      | direct hb => exact absurd ((runtime_base hH).1 hb).2 (by decide)
      | step hb h =>
        obtain ⟨rfl, -⟩ := (runtime_base hH).1 hb
        cases h with
        | direct hb => exact absurd hb (exception_base hH)
        | step hb _ => exact absurd hb (exception_base hH)
    · simp at h1
  constructor
  · rintro (h | ⟨v, hv, h⟩)
    · cases h with
      | self => exact .inl rfl
      | @base _ b τ hb' h =>
        rcases (hb.1 hb').1 with rfl | rfl
        · exact .inr (.inl ⟨τ, (hp he).1 h, rfl⟩)
        · exact .inr (.inr (.inr ⟨τ, .inl ((hp hr).1 h), rfl⟩))
    · cases hv with
      | direct hb' => exact absurd (hb.1 hb').2 (by decide)
      | step hb' hv =>
        rcases (hb.1 hb').1 with rfl | rfl
        · have hv := (hvb he).1 hv
          exact .inr (.inr (.inl ⟨v, hv, (hp (hv.inherits.defined hH.1 he)).1 h⟩))
        · exact absurd ((hvb hr).1 hv) (nov v)
  · rintro (rfl | ⟨τ, h, rfl⟩ | ⟨v, hv, h⟩ | ⟨τ, h, rfl⟩)
    · exact .inl (.self ⟨_, List.mem_cons_self⟩)
    · exact .inl (.base (hb.2 ⟨.inl rfl, rfl⟩) ((hp he).2 h))
    · exact .inr ⟨v, .step (hb.2 ⟨.inl rfl, rfl⟩) ((hvb he).2 hv), (hp h.defined).2 h⟩
    · rcases h with h | ⟨v, hv, _⟩
      · exact .inl (.base (hb.2 ⟨.inr rfl, rfl⟩) ((hp hr).2 h))
      · exact absurd hv (nov v)

/-- C95, exactly: the classes, other than its own, as which the exception can be caught: the unambiguous bases of the error, and `std::runtime_error` and its base, except those that both have. -/
theorem C95_exact (hH : Extends H) (hw : ¬ H.Defined w) (he : H.Defined e) (hne : e ≠ runtimeError) (hc : c ≠ w) :
    (wrap H w e).Unambiguous w c ↔ H.Unambiguous e c ∧ ¬ (c = runtimeError ∨ c = stdException) ∨ (c = runtimeError ∨ c = stdException) ∧ ¬ H.Inherits e c := by
  have hs := fun σ => wrap_subobject (σ := σ) hH hw he
  have hl : ∀ {d : Cls} {τ : Path}, H.Subobject d τ → OfClass (w :: τ) c → OfClass τ c := by
    intro d τ h ho
    cases τ with
    | nil => rcases h with h | ⟨_, _, h⟩ <;> cases h
    | cons a τ => exact ho
  have hl' : ∀ {τ : Path}, OfClass τ c → OfClass (w :: τ) c := by
    intro τ ho
    cases τ with
    | nil => cases ho
    | cons a τ => exact ho
  -- the part of the exception that corresponds to a part of the error
  have up : ∀ {τ}, H.Subobject e τ → OfClass τ c → ∃ σ, (wrap H w e).Subobject w σ ∧ OfClass σ c ∧ (σ = w :: τ ∧ H.IsPath e τ ∨ σ = τ ∧ ∃ v, H.VBase e v ∧ H.IsPath v τ) := by
    rintro τ (h | ⟨v, hv, h⟩) ho
    · exact ⟨w :: τ, (hs _).2 (.inr (.inl ⟨τ, h, rfl⟩)), hl' ho, .inl ⟨rfl, h⟩⟩
    · exact ⟨τ, (hs _).2 (.inr (.inr (.inl ⟨v, hv, h⟩))), ho, .inr ⟨rfl, v, hv, h⟩⟩
  have nw : ∀ {v τ}, H.IsPath v τ → ∀ ρ, τ ≠ w :: ρ := by
    rintro v τ h ρ rfl
    have h1 := h.head
    have := h.defined
    simp only [List.head?_cons, Option.some.injEq] at h1
    subst h1
    exact hw this
  constructor
  · rintro ⟨σ, ⟨h1, h2⟩, hu⟩
    by_cases hi : H.Inherits e c
    · left
      obtain ⟨τ, t1, t2⟩ := hi.subobject hH.1 he
      refine ⟨⟨τ, ⟨t1, t2⟩, fun τ' t1' t2' => ?_⟩, fun hr => ?_⟩
      · obtain ⟨ρ, r1, r2, r3⟩ := up t1 t2
        obtain ⟨ρ', r1', r2', r3'⟩ := up t1' t2'
        have e1 := hu ρ r1 r2
        have e2 := hu ρ' r1' r2'
        have e3 : ρ = ρ' := e1.trans e2.symm
        rcases r3 with ⟨rfl, _⟩ | ⟨rfl, v, _, hv⟩ <;> rcases r3' with ⟨rfl, _⟩ | ⟨rfl, v', _, hv'⟩
        · exact (List.cons.inj e3).2.symm
        · exact absurd e3.symm (nw hv' _)
        · exact absurd e3 (nw hv _)
        · exact e3.symm
      · obtain ⟨ρ, r1, r2, r3⟩ := up t1 t2
        obtain ⟨κ, k1, k2, k3⟩ : ∃ κ, H.Subobject runtimeError κ ∧ OfClass κ c ∧ κ.head? = some runtimeError := by
          rcases hr with rfl | rfl
          · exact ⟨[runtimeError], (runtime_path hH).2 (.inl rfl), rfl, rfl⟩
          · exact ⟨[runtimeError, stdException], (runtime_path hH).2 (.inr rfl), rfl, rfl⟩
        have e1 := (hu ρ r1 r2).trans (hu (w :: κ) ((hs _).2 (.inr (.inr (.inr ⟨κ, k1, rfl⟩)))) (hl' k2)).symm
        rcases r3 with ⟨rfl, hp⟩ | ⟨rfl, v, _, hv⟩
        · have := hp.head
          rw [(List.cons.inj e1).2, k3] at this
          exact hne (Option.some.inj this).symm
        · exact nw hv _ e1
    · right
      refine ⟨?_, hi⟩
      rcases (hs σ).1 h1 with rfl | ⟨τ, h, rfl⟩ | ⟨v, hv, h⟩ | ⟨τ, h, rfl⟩
      · exact absurd (Option.some.inj h2).symm hc
      · exact absurd (h.inherits (hl (.inl h) h2)) hi
      · exact absurd (hv.inherits.trans (h.inherits h2)) hi
      · exact (runtime_inherits hH).1 (h.inherits (hl h h2))
  · rintro (⟨⟨τ, ⟨t1, t2⟩, hu⟩, hr⟩ | ⟨hr, hi⟩)
    · obtain ⟨ρ, r1, r2, r3⟩ := up t1 t2
      refine ⟨ρ, ⟨r1, r2⟩, fun σ h1 h2 => ?_⟩
      rcases (hs σ).1 h1 with rfl | ⟨τ', h, rfl⟩ | ⟨v, hv, h⟩ | ⟨τ', h, rfl⟩
      · exact absurd (Option.some.inj h2).symm hc
      · have := hu τ' (.inl h) (hl (.inl h) h2)
        subst this
        rcases r3 with ⟨rfl, _⟩ | ⟨rfl, v, hv, hp⟩
        · rfl
        · exfalso
          exact vpath_ne_path hH.1 hv hp h
      · have := hu σ (.inr ⟨v, hv, h⟩) h2
        subst this
        rcases r3 with ⟨rfl, hp⟩ | ⟨rfl, _⟩
        · exfalso
          exact vpath_ne_path hH.1 hv h hp
        · rfl
      · exact absurd ((runtime_inherits hH).1 (h.inherits (hl h h2))) hr
    · obtain ⟨κ, k1, k2, k3⟩ : ∃ κ, H.Subobject runtimeError κ ∧ OfClass κ c ∧ ∀ τ, H.Subobject runtimeError τ → OfClass τ c → τ = κ := by
        have hx : runtimeError ≠ stdException := by decide
        rcases hr with rfl | rfl
        · refine ⟨[runtimeError], (runtime_path hH).2 (.inl rfl), rfl, fun τ h ho => ?_⟩
          rcases (runtime_path hH).1 h with rfl | rfl
          · rfl
          · exact absurd (Option.some.inj ho).symm hx
        · refine ⟨[runtimeError, stdException], (runtime_path hH).2 (.inr rfl), rfl, fun τ h ho => ?_⟩
          rcases (runtime_path hH).1 h with rfl | rfl
          · exact absurd (Option.some.inj ho) hx
          · rfl
      refine ⟨w :: κ, ⟨(hs _).2 (.inr (.inr (.inr ⟨κ, k1, rfl⟩))), hl' k2⟩, fun σ h1 h2 => ?_⟩
      rcases (hs σ).1 h1 with rfl | ⟨τ', h, rfl⟩ | ⟨v, hv, h⟩ | ⟨τ', h, rfl⟩
      · exact absurd (Option.some.inj h2).symm hc
      · exact absurd (h.inherits (hl (.inl h) h2)) hi
      · exact absurd (hv.inherits.trans (h.inherits h2)) hi
      · rw [k3 τ' h (hl h h2)]

/-- Of several handlers, the first one that can catch the exception does. -/
theorem C95_first (hH : Extends H) (hw : ¬ H.Defined w) (he : H.Defined e) {handlers : List Cls} :
    caughtBy H w e handlers = some c ↔ ∃ before after, handlers = before ++ c :: after ∧ (wrap H w e).Unambiguous w c ∧ ∀ b ∈ before, ¬ (wrap H w e).Unambiguous w b := by
  unfold caughtBy
  rw [List.find?_eq_some_iff_append, isConvertible_iff (wrap_wf hH hw he)]
  simp only [Bool.not_eq_true', ← Bool.not_eq_true, isConvertible_iff (wrap_wf hH hw he)]
  constructor
  · rintro ⟨h, before, after, h1, h2⟩
    exact ⟨before, after, h1, h, h2⟩
  · rintro ⟨before, after, h1, h, h2⟩
    exact ⟨h, before, after, h1, h2⟩

/-- C95 in full: an error, whose class derives from `openmethod_error`, can be caught as an error of that class and as a `std::runtime_error`. -/
def C95 : Prop :=
  ∀ H : Hier, Extends H → ∀ w e, ¬ H.Defined w → H.Defined e → H.Inherits e openmethodError → caughtBy H w e [e] = some e ∧ caughtBy H w e [runtimeError] = some runtimeError

theorem caught_one (hW : (wrap H w e).WF) : caughtBy H w e [c] = some c ↔ (wrap H w e).Unambiguous w c := by
  unfold caughtBy
  rw [List.find?_singleton, ← isConvertible_iff hW]
  split <;> simp [*]

/-- C95 does not hold for errors that derive from `std::runtime_error` themselves. -/
theorem C95_refuted : ¬ C95 := by
  intro h
  have := (h moreErrors ⟨moreErrors_wf, _, rfl⟩ 16 15 (by simp [moreErrors, stock, Hier.Defined]) ⟨_, List.mem_cons_self⟩
    ((isBaseOf_iff moreErrors_wf ⟨_, List.mem_cons_self⟩).1 (by decide +kernel))).2
  exact absurd this (by decide +kernel)

/-- C95: which errors can be caught as what. Always as an error of their class, and as an `openmethod_error` if this is an unambiguous base of it. -/
theorem C95_partial (hH : Extends H) (hw : ¬ H.Defined w) (he : H.Defined e) (ho : H.Inherits e openmethodError) :
    caughtBy H w e [e] = some e ∧
    (H.Unambiguous e c → ¬ (c = runtimeError ∨ c = stdException) → caughtBy H w e [c] = some c) ∧
    (caughtBy H w e [runtimeError] = some runtimeError ↔ ¬ H.Inherits e runtimeError) ∧
    (caughtBy H w e [stdException] = some stdException ↔ ¬ H.Inherits e stdException) := by
  have W := wrap_wf hH hw he
  have hnr : e ≠ runtimeError := by
    rintro rfl
    exact absurd ((runtime_inherits hH).1 ho) (by decide)
  have hnx : e ≠ stdException := by
    rintro rfl
    rcases ho.cases_head with h | ⟨b, ⟨v, hb⟩, _⟩
    · exact absurd h (by decide)
    · exact exception_base hH hb
  have hne : ∀ {c}, H.Defined c → c ≠ w := by rintro c hc rfl; exact hw hc
  rw [caught_one W, caught_one W, caught_one W, caught_one W, C95_exact hH hw he hnr (hne he), C95_exact hH hw he hnr (hne hH.runtime), C95_exact hH hw he hnr (hne hH.exception)]
  refine ⟨.inl ⟨Hier.unambiguous_self hH.1 he, by simp [hnr, hnx]⟩, fun hu hc => ?_, by simp, by simp⟩
  rw [C95_exact hH hw he hnr (hne (hu.inherits.defined hH.1 he))]
  exact .inl ⟨hu, hc⟩

theorem subobject_append (hw : Hier.WF (more ++ H)) (hc : H.Defined c) {σ : Path} : Hier.Subobject (more ++ H) c σ ↔ H.Subobject c σ := by
  induction more with
  | nil => rfl
  | cons x more ih =>
    obtain ⟨d, bs⟩ := x
    have hw' : Hier.WF ((d, bs) :: (more ++ H)) := hw
    have hdef : ∀ {a}, Hier.Defined (more ++ H) a → a ≠ d := by rintro a ha rfl; exact hw'.2.1 ha
    have hc' : Hier.Defined (more ++ H) c := by obtain ⟨cs, h⟩ := hc; exact ⟨cs, List.mem_append_right _ h⟩
    rw [← ih hw'.1, List.cons_append]
    unfold Hier.Subobject
    rw [Hier.isPath_cons hw' (hdef hc')]
    refine or_congr Iff.rfl (exists_congr fun v => ?_)
    rw [Hier.vbase_cons hw' (hdef hc')]
    refine and_congr_right fun hv => ?_
    rw [Hier.isPath_cons hw' (hdef (hv.inherits.defined hw'.1 hc'))]

theorem stock_unambiguous (hH : Extends H) (hc : stock.Defined c) : H.Unambiguous c d ↔ stock.isConvertible c d = true := by
  rw [isConvertible_iff stock_wf]
  obtain ⟨hw, more, rfl⟩ := hH
  unfold Hier.Unambiguous
  simp only [subobject_append hw hc]

/-- The errors of the library can be caught as errors of their class, as `openmethod_error`, as `std::runtime_error` and as `std::exception`; bad calls also as `bad_call`. -/
theorem C95_library (hH : Extends H) (hw : ¬ H.Defined w) (e : Err) :
    (∀ c, c = classOf e ∨ c = openmethodError ∨ c = runtimeError ∨ c = stdException → caughtBy H w (classOf e) [c] = some c) ∧
    ((∃ n ts, e = .noOverrider n ts ∨ e = .ambiguousCall n ts) → caughtBy H w (classOf e) [badCall] = some badCall) := by
  have hs : stock.Defined (classOf e) := by cases e <;> simp [classOf, stock, Hier.Defined]
  have he := hH.defined hs
  have ho : H.Unambiguous (classOf e) openmethodError := by
    rw [stock_unambiguous hH hs]
    cases e <;> (simp only [classOf]; decide +kernel)
  have hn : ∀ c, c = runtimeError ∨ c = stdException → ¬ H.Inherits (classOf e) c := by
    intro c hc hi
    obtain ⟨σ, h1, h2⟩ := hi.subobject hH.1 he
    obtain ⟨hW, more, rfl⟩ := hH
    have := (isBaseOf_iff stock_wf hs).2 (((subobject_append hW hs).1 h1).inherits h2)
    rcases hc with rfl | rfl <;> (revert this; cases e <;> (simp only [classOf]; decide +kernel))
  have P := fun c => C95_partial (c := c) hH hw he ho.inherits
  refine ⟨?_, ?_⟩
  · rintro c (rfl | rfl | rfl | rfl)
    · exact (P 0).1
    · exact (P _).2.1 ho (by decide)
    · exact (P 0).2.2.1.2 (hn _ (.inl rfl))
    · exact (P 0).2.2.2.2 (hn _ (.inr rfl))
  · rintro ⟨n, ts, rfl | rfl⟩
    · exact (P _).2.1 ((stock_unambiguous hH hs).2 (by simp only [classOf]; decide +kernel)) (by decide)
    · exact (P _).2.1 ((stock_unambiguous hH hs).2 (by simp only [classOf]; decide +kernel)) (by decide)

/-- Cases of `C95_first`: handlers in the wrong order; and the error class of `C95_refuted`, which only the last handler catches. -/
example : caughtBy moreErrors 16 (classOf (.noOverrider 1 [])) [3, badCall, 6, runtimeError] = some badCall ∧
    caughtBy moreErrors 16 15 [runtimeError, stdException, openmethodError] = some openmethodError := by decide +kernel

end OpenMethod.Props
