import Verif.SpecCpp
import Verif.Proof.Thunk

/-! # What `use_classes` registers -/

namespace OpenMethod

open Spec

variable {H : Hier} {us : List UseClasses} {p : Program} {b c d x : Cls}

/-! ## Inheritance and subobjects -/

theorem Hier.IsPath.inherits {σ : Path} (h : H.IsPath c σ) (hb : OfClass σ b) : H.Inherits c b := by
  induction h with
  | self _ => obtain rfl := Option.some.inj hb; exact .refl
  | base h1 h2 ih =>
    refine .head ⟨_, h1⟩ (ih ?_)
    cases h2 with
    | self _ => exact hb
    | base _ _ => exact hb

theorem Hier.VBase.inherits (h : H.VBase c b) : H.Inherits c b := by
  induction h with
  | direct h => exact .single ⟨_, h⟩
  | step h _ ih => exact .head ⟨_, h⟩ ih

theorem Hier.Subobject.inherits {σ : Path} (h : H.Subobject c σ) (hb : OfClass σ b) : H.Inherits c b := by
  rcases h with h | ⟨v, hv, h⟩
  · exact h.inherits hb
  · exact hv.inherits.trans (h.inherits hb)

theorem Hier.Inherits.subobject (hw : H.WF) (hd : H.Defined c) (h : H.Inherits c b) : ∃ σ, H.Subobject c σ ∧ OfClass σ b := by
  induction h with
  | refl => exact ⟨[c], .inl (.self hd), rfl⟩
  | @tail d b _ hb ih =>
    obtain ⟨ρ, h1, h2⟩ := ih
    obtain ⟨v, hb⟩ := hb
    have hdb := hw.base hb
    have : ∃ τ, H.Subobject d τ ∧ OfClass τ b := by
      cases v with
      | true => exact ⟨[b], .inr ⟨b, .direct hb, .self hdb⟩, rfl⟩
      | false => exact ⟨[d, b], .inl (.base hb (.self hdb)), rfl⟩
    obtain ⟨τ, h3, h4⟩ := this
    exact ⟨_, h1.sub h2 h3, sub_ofClass h2 h4⟩

theorem Hier.Inherits.defined (hw : H.WF) (hd : H.Defined c) (h : H.Inherits c b) : H.Defined b := by
  induction h with
  | refl => exact hd
  | tail _ hb _ => obtain ⟨v, hb⟩ := hb; exact hw.base hb

/-- The position of a class decreases towards its bases. -/
theorem Hier.WF.rank (hw : H.WF) : ∃ rank : Cls → Nat, ∀ d b v, H.Base d b v → rank b < rank d := by
  induction H with
  | nil => exact ⟨fun _ => 0, fun d b v ⟨_, h, _⟩ => by simp at h⟩
  | cons e H ih =>
    obtain ⟨c, bs⟩ := e
    obtain ⟨rank, hr⟩ := ih hw.1
    let top := (bs.map fun b => rank b.1).foldr max 0
    have htop : ∀ b ∈ bs, rank b.1 ≤ top := by
      intro b hb
      have : ∀ l : List Nat, ∀ n ∈ l, n ≤ l.foldr max 0 := by
        intro l
        induction l with
        | nil => simp
        | cons a l ih =>
          intro n hn
          rcases List.mem_cons.1 hn with rfl | hn
          · exact le_max_left _ _
          · exact (ih n hn).trans (le_max_right _ _)
      exact this _ _ (List.mem_map.2 ⟨b, hb, rfl⟩)
    refine ⟨fun x => if x = c then top + 1 else rank x, fun d b v hb => ?_⟩
    rw [Hier.base_cons hw] at hb
    split at hb
    · rename_i hd
      have hne : b ≠ c := by rintro rfl; exact hw.2.1 (hw.2.2 _ hb)
      simp only [if_neg hne, hd, if_true]
      exact Nat.lt_succ_of_le (htop _ hb)
    · rename_i hd
      have hne : b ≠ c := by rintro rfl; exact hw.2.1 (hw.1.base hb)
      simp only [if_neg hne, if_neg hd]
      exact hr d b v hb

theorem Hier.Inherits.antisymm (hw : H.WF) (h : H.Inherits c b) (h' : H.Inherits b c) : b = c := by
  obtain ⟨rank, hr⟩ := hw.rank
  have le : ∀ x y, H.Inherits x y → rank y ≤ rank x := by
    intro x y h
    induction h with
    | refl => exact Nat.le_refl _
    | tail _ hb ih => obtain ⟨v, hb⟩ := hb; exact (hr _ _ _ hb).le.trans ih
  cases h using Relation.ReflTransGen.head_induction_on with
  | refl => rfl
  | head hb h =>
    obtain ⟨v, hb⟩ := hb
    exact absurd ((le _ _ h').trans (le _ _ h)) (Nat.not_le.2 (hr _ _ _ hb))

/-! ## The records -/

theorem isBaseOf_iff (hw : H.WF) (hd : H.Defined d) : H.isBaseOf b d = true ↔ H.Inherits d b := by
  unfold Hier.isBaseOf
  simp only [ne_eq, decide_not, Bool.not_eq_true', decide_eq_false_iff_not]
  constructor
  · intro h
    obtain ⟨σ, hσ⟩ := List.exists_mem_of_ne_nil _ h
    obtain ⟨h1, h2⟩ := (Hier.mem_occ hw).1 hσ
    exact h1.inherits h2
  · intro h he
    obtain ⟨σ, h1, h2⟩ := h.subobject hw hd
    have := (Hier.mem_occ hw).2 ⟨h1, h2⟩
    rw [he] at this
    cases this

theorem isConvertible_iff (hw : H.WF) : H.isConvertible d b = true ↔ H.Unambiguous d b := by
  unfold Hier.isConvertible Hier.Unambiguous
  rw [Option.isSome_iff_exists]
  simp only [Hier.only_eq_some hw]

theorem mem_basesIn (hw : H.WF) (hd : H.Defined d) {l r : List Cls} (h : H.basesIn d l = some r) :
    (∀ b, b ∈ r ↔ b ∈ l ∧ H.Inherits d b) ∧ ∀ b ∈ r, H.Unambiguous d b := by
  induction l generalizing r with
  | nil =>
    unfold Hier.basesIn at h
    obtain rfl := Option.some.inj h
    simp
  | cons a l ih =>
    simp only [Hier.basesIn, Option.bind_eq_bind, Option.bind_eq_some_iff, Option.some.injEq] at h
    obtain ⟨t, ht, r', hr', rfl⟩ := h
    obtain ⟨h1, h2⟩ := ih hr'
    unfold Hier.isUnambiguousBase at ht
    split at ht
    · rename_i he
      have ht := Option.some.inj ht
      cases t with
      | true =>
        have hu := (isConvertible_iff hw).1 (he.symm.trans ht)
        have hi := (isBaseOf_iff hw hd).1 ht
        refine ⟨fun b => ?_, fun b hb => ?_⟩
        · rw [if_pos rfl, List.mem_cons, List.mem_cons, h1]
          constructor
          · rintro (rfl | h)
            · exact ⟨.inl rfl, hi⟩
            · exact ⟨.inr h.1, h.2⟩
          · rintro ⟨rfl | h, h'⟩
            · exact .inl rfl
            · exact .inr ⟨h, h'⟩
        · rw [if_pos rfl] at hb
          rcases List.mem_cons.1 hb with rfl | hb
          · exact hu
          · exact h2 b hb
      | false =>
        have hi : ¬ H.Inherits d a := by rw [← isBaseOf_iff hw hd, ht]; simp
        simp only [Bool.false_eq_true, if_false]
        refine ⟨fun b => ?_, h2⟩
        rw [List.mem_cons, h1]
        constructor
        · exact fun h => ⟨.inr h.1, h.2⟩
        · rintro ⟨rfl | h, h'⟩
          · exact absurd h' hi
          · exact ⟨h, h'⟩
    · cases ht

theorem mem_inheritanceMap {all cs : List Cls} {r : List (Cls × List Cls)} (h : H.inheritanceMap all cs = some r) :
    (∀ c ∈ cs, ∃ l, H.basesIn c all = some l ∧ (c, l) ∈ r) ∧ ∀ e ∈ r, e.1 ∈ cs ∧ H.basesIn e.1 all = some e.2 := by
  induction cs generalizing r with
  | nil =>
    unfold Hier.inheritanceMap at h
    obtain rfl := Option.some.inj h
    simp
  | cons a cs ih =>
    simp only [Hier.inheritanceMap, Option.bind_eq_bind, Option.bind_eq_some_iff, Option.some.injEq] at h
    obtain ⟨l, hl, r', hr', rfl⟩ := h
    obtain ⟨h1, h2⟩ := ih hr'
    constructor
    · intro c hc
      rcases List.mem_cons.1 hc with rfl | hc
      · exact ⟨l, hl, List.mem_cons_self⟩
      · obtain ⟨l', e1, e2⟩ := h1 c hc
        exact ⟨l', e1, List.mem_cons_of_mem _ e2⟩
    · intro e he
      rcases List.mem_cons.1 he with rfl | he
      · exact ⟨List.mem_cons_self, hl⟩
      · exact ⟨List.mem_cons_of_mem _ (h2 e he).1, (h2 e he).2⟩

/-- What the records contain. -/
structure IsRecord (H : Hier) (u : UseClasses) (c : Cls) (cr : ClassInfo) : Prop where
  type : cr.type = u.ids c
  bases : ∀ t, t ∈ cr.bases ↔ ∃ b ∈ u.classes, H.Inherits c b ∧ t = u.ids b
  unambiguous : ∀ b ∈ u.classes, H.Inherits c b → H.Unambiguous c b
  var : cr.staticVptr = u.vars c

theorem mem_records (hw : H.WF) {u : UseClasses} (hd : ∀ c ∈ u.classes, H.Defined c) {rs : List ClassInfo} (h : u.records H = some rs) :
    (∀ c ∈ u.classes, ∃ cr ∈ rs, IsRecord H u c cr) ∧ ∀ cr ∈ rs, ∃ c ∈ u.classes, IsRecord H u c cr := by
  unfold UseClasses.records at h
  obtain ⟨l, hl, rfl⟩ := Option.map_eq_some_iff.1 h
  obtain ⟨h1, h2⟩ := mem_inheritanceMap hl
  have key : ∀ e ∈ l, IsRecord H u e.1
      { type := u.ids e.1, bases := e.2.map u.ids, isAbstract := u.isAbstract e.1, staticVptr := u.vars e.1 } := by
    intro e he
    obtain ⟨h3, h4⟩ := h2 e he
    obtain ⟨h5, h6⟩ := mem_basesIn hw (hd _ h3) h4
    refine ⟨rfl, fun t => ?_, fun b hb hi => h6 b ((h5 b).2 ⟨hb, hi⟩), rfl⟩
    simp only [List.mem_map, h5]
    constructor
    · rintro ⟨b, ⟨h7, h8⟩, rfl⟩; exact ⟨b, h7, h8, rfl⟩
    · rintro ⟨b, h7, h8, rfl⟩; exact ⟨b, ⟨h7, h8⟩, rfl⟩
  constructor
  · intro c hc
    obtain ⟨bs, _, e2⟩ := h1 c hc
    exact ⟨_, List.mem_map.2 ⟨_, e2, rfl⟩, key _ e2⟩
  · intro cr hcr
    obtain ⟨e, he, rfl⟩ := List.mem_map.1 hcr
    exact ⟨e.1, (h2 e he).1, key e he⟩

theorem mem_allRecords (hw : H.WF) (hd : ∀ c, Named us c → H.Defined c) {rs : List ClassInfo} (h : allRecords H us = some rs) :
    (∀ u ∈ us, ∀ c ∈ u.classes, ∃ cr ∈ rs, IsRecord H u c cr) ∧ ∀ cr ∈ rs, ∃ u ∈ us, ∃ c ∈ u.classes, IsRecord H u c cr := by
  induction us generalizing rs with
  | nil =>
    unfold allRecords at h
    obtain rfl := Option.some.inj h
    simp
  | cons u us ih =>
    simp only [allRecords, Option.bind_eq_bind, Option.bind_eq_some_iff, Option.some.injEq] at h
    obtain ⟨r, hr, rs', hrs, rfl⟩ := h
    obtain ⟨h1, h2⟩ := mem_records hw (fun c hc => hd c ⟨u, List.mem_cons_self, hc⟩) hr
    obtain ⟨h3, h4⟩ := ih (fun c ⟨u, hu, hc⟩ => hd c ⟨u, List.mem_cons_of_mem _ hu, hc⟩) hrs
    constructor
    · intro u' hu' c hc
      rcases List.mem_cons.1 hu' with rfl | hu'
      · obtain ⟨cr, e1, e2⟩ := h1 c hc
        exact ⟨cr, List.mem_append_left _ e1, e2⟩
      · obtain ⟨cr, e1, e2⟩ := h3 u' hu' c hc
        exact ⟨cr, List.mem_append_right _ e1, e2⟩
    · intro cr hcr
      rcases List.mem_append.1 hcr with hcr | hcr
      · obtain ⟨c, e1, e2⟩ := h2 cr hcr
        exact ⟨u, List.mem_cons_self, c, e1, e2⟩
      · obtain ⟨u', hu', e⟩ := h4 cr hcr
        exact ⟨u', List.mem_cons_of_mem _ hu', e⟩

theorem Registers.mem (h : Registers H us p) :
    (∀ u ∈ us, ∀ c ∈ u.classes, ∃ cr ∈ p.classes, IsRecord H u c cr) ∧ ∀ cr ∈ p.classes, ∃ u ∈ us, ∃ c ∈ u.classes, IsRecord H u c cr := by
  obtain ⟨rs, h1, h2⟩ := h.records
  obtain ⟨h3, h4⟩ := mem_allRecords h.wf h.defined h1
  constructor
  · intro u hu c hc
    obtain ⟨cr, e1, e2⟩ := h3 u hu c hc
    exact ⟨cr, h2.symm.subset e1, e2⟩
  · exact fun cr hcr => h4 cr (h2.subset hcr)

theorem Registers.registered (h : Registers H us p) : Registered p c ↔ Named us c := by
  obtain ⟨h1, h2⟩ := h.mem
  constructor
  · rintro ⟨cr, hcr, rfl⟩
    obtain ⟨u, hu, c, hc, R⟩ := h2 cr hcr
    rw [R.type, h.ids u hu c hc]
    exact ⟨u, hu, hc⟩
  · rintro ⟨u, hu, hc⟩
    obtain ⟨cr, hcr, R⟩ := h1 u hu c hc
    exact ⟨cr, hcr, by rw [R.type, h.ids u hu c hc]⟩

theorem Registers.declared (h : Registers H us p) : DeclaredBase p d b ↔ (Together us d b ∧ H.Inherits d b) ∧ d ≠ b := by
  obtain ⟨h1, h2⟩ := h.mem
  constructor
  · rintro ⟨cr, hcr, rfl, t, ht, rfl, hne⟩
    obtain ⟨u, hu, c, hc, R⟩ := h2 cr hcr
    obtain ⟨b, hb, hi, rfl⟩ := (R.bases t).1 ht
    rw [R.type, h.ids u hu c hc, h.ids u hu b hb] at *
    exact ⟨⟨⟨u, hu, hc, hb⟩, hi⟩, hne⟩
  · rintro ⟨⟨⟨u, hu, hc, hb⟩, hi⟩, hne⟩
    obtain ⟨cr, hcr, R⟩ := h1 u hu d hc
    exact ⟨cr, hcr, by rw [R.type, h.ids u hu d hc], u.ids b, (R.bases _).2 ⟨b, hb, hi, rfl⟩, h.ids u hu b hb, hne⟩

theorem Registers.describes (h : Registers H us p) : H.Describes p := by
  obtain ⟨_, h2⟩ := h.mem
  refine ⟨h.wf, fun cr hcr => ?_, fun cr hcr t ht => ?_⟩
  · obtain ⟨u, hu, c, hc, R⟩ := h2 cr hcr
    rw [R.type, h.ids u hu c hc]
    exact h.defined c ⟨u, hu, hc⟩
  · obtain ⟨u, hu, c, hc, R⟩ := h2 cr hcr
    obtain ⟨b, hb, hi, rfl⟩ := (R.bases t).1 ht
    rw [R.type, h.ids u hu c hc, h.ids u hu b hb]
    exact R.unambiguous b hb hi

theorem Registers.sound (h : Registers H us p) (hd : Derives p d b) : H.Inherits d b := by
  induction hd with
  | refl => exact .refl
  | tail _ hb ih => exact ih.trans (h.declared.1 hb).1.2

theorem Registers.acyclic (h : Registers H us p) : Acyclic p := fun _ _ h1 h2 => ((h.sound h1).antisymm h.wf (h.sound h2)).symm

end OpenMethod
