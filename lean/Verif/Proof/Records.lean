import Verif.Proof.SafeOrder
import Verif.SpecCall
import Verif.SpecChange
import Verif.Model.Classes
import Verif.Proof.ListLemmas
import Mathlib.Data.Finset.Card
import Mathlib.Data.List.Sort

/-! # Other lists of the same class records -/

namespace OpenMethod

open Spec Relation

variable {p : Program} {cs cs' : List ClassInfo}

/-- The same methods, other class records. -/
def Program.withClasses (p : Program) (cs : List ClassInfo) : Program := { p with classes := cs }

theorem sameRecords_declared (h : ∀ cr, cr ∈ cs ↔ cr ∈ p.classes) (d b : Cls) : DeclaredBase (p.withClasses cs) d b ↔ DeclaredBase p d b := by
  constructor
  · rintro ⟨cr, hcr, h1⟩
    exact ⟨cr, (h cr).1 hcr, h1⟩
  · rintro ⟨cr, hcr, h1⟩
    exact ⟨cr, (h cr).2 hcr, h1⟩

theorem sameRecords_derives (h : ∀ cr, cr ∈ cs ↔ cr ∈ p.classes) (a b : Cls) : Derives (p.withClasses cs) a b ↔ Derives p a b := by
  unfold Derives
  rw [show DeclaredBase (p.withClasses cs) = DeclaredBase p from funext fun d => funext fun b => propext (sameRecords_declared h d b)]

theorem sameRecords (h : ∀ cr, cr ∈ cs ↔ cr ∈ p.classes) : SameInheritance p (p.withClasses cs) where
  rtti := rfl
  methods := rfl
  registered c := by
    constructor
    · rintro ⟨cr, hcr, h1⟩
      exact ⟨cr, (h cr).1 hcr, h1⟩
    · rintro ⟨cr, hcr, h1⟩
      exact ⟨cr, (h cr).2 hcr, h1⟩
  derives := sameRecords_derives h

theorem sameRecords_valid (h : ∀ cr, cr ∈ cs ↔ cr ∈ p.classes) (hv : p.Valid) : (p.withClasses cs).Valid where
  acyclic a b h1 h2 := hv.acyclic a b ((sameRecords_derives h a b).1 h1) ((sameRecords_derives h b a).1 h2)
  wf := hv.wf
  ids := hv.ids

/-! ## Once more -/

theorem mem_twice (h : ∀ cr, cr ∈ cs ↔ cr ∈ p.classes) (cr : ClassInfo) : cr ∈ p.classes ++ cs ↔ cr ∈ p.classes := by
  rw [List.mem_append, h, or_self]

theorem twice_allFound (h : ∀ cr, cr ∈ cs ↔ cr ∈ p.classes) (x : Cls) : AllFound (p.withClasses (p.classes ++ cs)) x := by
  rintro b ⟨hb, hne⟩
  rw [sameRecords_derives (mem_twice h)] at hb
  rcases ReflTransGen.cases_head hb with rfl | ⟨c, ⟨cr, hcr, rfl, t, ht, rfl, hcb⟩, hc⟩
  · exact absurd rfl hne
  · obtain ⟨pre, post, he⟩ := List.append_of_mem ((h cr).2 hcr)
    refine ⟨p.classes ++ pre, cr, post, ?_, rfl, t, ht, hcb, ?_⟩
    · show p.classes ++ cs = _
      rw [he, List.append_assoc]
    · refine ReflTransGen.mono (fun d b hd => ?_) _ _ hc
      obtain ⟨cr', h1, h2⟩ := hd
      exact ⟨cr', List.mem_append_left _ h1, h2⟩

/-! ## Bases first -/

open Classical in
/-- The number of bases of a class, direct or not. -/
noncomputable def rankOf (p : Program) (x : Cls) : Nat :=
  ((p.classes.flatMap fun cr => cr.bases.map p.rtti.ti).toFinset.filter (ProperlyDerives p x ·)).card

theorem rank_lt (ha : Acyclic p) {d b : Cls} (h : DeclaredBase p d b) : rankOf p b < rankOf p d := by
  classical
  apply Finset.card_lt_card
  have hdb : Derives p d b := .single h
  obtain ⟨cr, hcr, rfl, t, ht, rfl, hne⟩ := h
  have hm : p.rtti.ti t ∈ (p.classes.flatMap fun cr => cr.bases.map p.rtti.ti).toFinset :=
    List.mem_toFinset.2 (List.mem_flatMap.2 ⟨cr, hcr, List.mem_map.2 ⟨t, ht, rfl⟩⟩)
  refine Finset.ssubset_iff_of_subset (fun c hc => ?_) |>.2 ⟨p.rtti.ti t, Finset.mem_filter.2 ⟨hm, hdb, hne⟩, fun hf => (Finset.mem_filter.1 hf).2.2 rfl⟩
  obtain ⟨h1, h2, h3⟩ := Finset.mem_filter.1 hc
  refine Finset.mem_filter.2 ⟨h1, hdb.trans h2, fun e => h3 ?_⟩
  subst e
  exact ha _ _ h2 hdb

open Classical in
noncomputable def sortedClasses (p : Program) : List ClassInfo :=
  p.classes.mergeSort fun a b => decide (rankOf p (p.rtti.ti a.type) ≤ rankOf p (p.rtti.ti b.type))

theorem sorted_perm (p : Program) : (sortedClasses p).Perm p.classes := List.mergeSort_perm _ _

theorem sorted_pairwise (p : Program) : (sortedClasses p).Pairwise fun a b => rankOf p (p.rtti.ti a.type) ≤ rankOf p (p.rtti.ti b.type) := by
  refine (List.pairwise_mergeSort (fun a b c h1 h2 => ?_) (fun a b => ?_) p.classes).imp fun h => of_decide_eq_true h
  · rw [decide_eq_true_eq] at *
    omega
  · simp only [Bool.or_eq_true, decide_eq_true_eq]
    omega

theorem sorted_basesFirst (ha : Acyclic p) (x : Cls) : BasesFirst (p.withClasses (sortedClasses p)) x := by
  have hm : ∀ cr, cr ∈ sortedClasses p ↔ cr ∈ p.classes := fun cr => (sorted_perm p).mem_iff
  intro pre cr post he _ t ht hne b hb
  obtain ⟨cr', hcr', h1, h2⟩ := hb
  refine ⟨cr', ?_, h1, h2⟩
  have he' : sortedClasses p = pre ++ cr :: post := he
  have hcr : cr ∈ p.classes := (hm cr).1 (by rw [he']; simp)
  have hlt : rankOf p (p.rtti.ti cr'.type) < rankOf p (p.rtti.ti cr.type) :=
    rank_lt ha ⟨cr, hcr, rfl, t, ht, h1.symm, fun e => hne (e.trans h1)⟩
  have hcr2 : cr' ∈ pre ++ cr :: post := he' ▸ hcr'
  rcases List.mem_append.1 hcr2 with h | h
  · exact h
  · rcases List.mem_cons.1 h with rfl | h
    · omega
    · have hp := sorted_pairwise p
      rw [he'] at hp
      have := List.rel_of_pairwise_cons (List.pairwise_append.1 hp).2.1 h
      omega

/-! ## The loops of `augment_classes` -/

theorem addClass_same {r : Rtti} {s : Lattice} {cr : ClassInfo} (h1 : r.ti cr.type ∈ s.order) (h2 : cr.type ∈ s.typeIds (r.ti cr.type)) : addClass r s cr = s := by
  unfold addClass
  simp only [h1, h2, if_true]

theorem addClass_mem (r : Rtti) (s : Lattice) (cr : ClassInfo) : r.ti cr.type ∈ (addClass r s cr).order ∧ cr.type ∈ (addClass r s cr).typeIds (r.ti cr.type) := by
  unfold addClass
  dsimp only
  by_cases h1 : r.ti cr.type ∈ s.order
  · simp only [h1, if_true]
    split
    · exact ⟨h1, by assumption⟩
    · exact ⟨h1, by simp⟩
  · simp only [h1, if_false]
    split
    · exact ⟨by simp, by assumption⟩
    · exact ⟨by simp, by simp⟩

theorem addClass_mono (r : Rtti) (s : Lattice) (cr : ClassInfo) {c : Cls} {t : TypeId} (h1 : c ∈ s.order) (h2 : t ∈ s.typeIds c) :
    c ∈ (addClass r s cr).order ∧ t ∈ (addClass r s cr).typeIds c := by
  unfold addClass
  dsimp only
  have key : ∀ s' : Lattice, c ∈ s'.order → t ∈ s'.typeIds c →
      c ∈ (if cr.type ∈ s'.typeIds (r.ti cr.type) then s' else { s' with typeIds := Function.update s'.typeIds (r.ti cr.type) (s'.typeIds (r.ti cr.type) ++ [cr.type]) }).order ∧
      t ∈ (if cr.type ∈ s'.typeIds (r.ti cr.type) then s' else { s' with typeIds := Function.update s'.typeIds (r.ti cr.type) (s'.typeIds (r.ti cr.type) ++ [cr.type]) }).typeIds c := by
    intro s' h1 h2
    split
    · exact ⟨h1, h2⟩
    · refine ⟨h1, ?_⟩
      by_cases hc : c = r.ti cr.type
      · subst hc; simp [h2]
      · simpa [Function.update_of_ne hc] using h2
  split
  · exact key s h1 h2
  · exact key _ (List.mem_append_left _ h1) h2

theorem addClasses_same {r : Rtti} (cs : List ClassInfo) {s : Lattice} (h : ∀ cr ∈ cs, r.ti cr.type ∈ s.order ∧ cr.type ∈ s.typeIds (r.ti cr.type)) : cs.foldl (addClass r) s = s := by
  induction cs with
  | nil => rfl
  | cons cr cs ih =>
    rw [List.foldl_cons, addClass_same (h cr List.mem_cons_self).1 (h cr List.mem_cons_self).2]
    exact ih fun cr hcr => h cr (List.mem_cons_of_mem _ hcr)

theorem addClasses_mono (r : Rtti) (cs : List ClassInfo) {s : Lattice} {c : Cls} {t : TypeId} (h1 : c ∈ s.order) (h2 : t ∈ s.typeIds c) :
    c ∈ (cs.foldl (addClass r) s).order ∧ t ∈ (cs.foldl (addClass r) s).typeIds c := by
  induction cs generalizing s with
  | nil => exact ⟨h1, h2⟩
  | cons cr cs ih =>
    obtain ⟨h1, h2⟩ := addClass_mono r s cr h1 h2
    exact ih h1 h2

theorem addClasses_mem (r : Rtti) (cs : List ClassInfo) (s : Lattice) : ∀ cr ∈ cs, r.ti cr.type ∈ (cs.foldl (addClass r) s).order ∧ cr.type ∈ (cs.foldl (addClass r) s).typeIds (r.ti cr.type) := by
  induction cs generalizing s with
  | nil => intro cr h; cases h
  | cons c cs ih =>
    intro cr h
    rcases List.mem_cons.1 h with rfl | h
    · exact addClasses_mono r cs (addClass_mem r s cr).1 (addClass_mem r s cr).2
    · exact ih _ cr h

/-- Registering all classes twice has the same effect as executing the loop that collects the bases twice. -/
theorem addClasses_twice (r : Rtti) (cs : List ClassInfo) (s : Lattice) : (cs ++ cs).foldl (addClass r) s = cs.foldl (addClass r) s := by
  rw [List.foldl_append]
  exact addClasses_same cs (addClasses_mem r cs s)

end OpenMethod
