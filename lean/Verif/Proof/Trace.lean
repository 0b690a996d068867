import Verif.Model.Trace
import Verif.Proof.Global

/-!
# Lemmas about tracing: what the code does besides writing
-/

namespace OpenMethod

open T Spec

namespace T

variable {α β : Type} {o : Option Bool} {l : Nat}

/-- What traced code does. -/
def res (x : T α) (o : Option Bool) (l : Nat) : Res α := (x o l).2

/-- What traced code writes. -/
def out (x : T α) (o : Option Bool) (l : Nat) : List Tok := (x o l).1

@[simp] theorem res_bind (x : T α) (f : α → T β) : (x >>= f).res o l = (x.res o l >>= fun a => (f a).res o l) := by
  show (T.bind x f o l).2 = _
  unfold T.bind res
  rcases x o l with ⟨w, a | e | _⟩ <;> rfl

@[simp] theorem res_pure (a : α) : (pure a : T α).res o l = .ok a := rfl
@[simp] theorem res_lift (r : Res α) : (lift r).res o l = r := rfl
@[simp] theorem res_say (ts : List Tok) : (say ts).res o l = .ok () := rfl
@[simp] theorem res_start : start.res o l = .ok () := rfl
@[simp] theorem res_line (ts : List Tok) : (line ts).res o l = .ok () := rfl
@[simp] theorem res_direct (ts : List Tok) : (direct ts).res o l = .ok () := rfl
@[simp] theorem res_indented (x : T α) : (indented x).res o l = x.res o (l + 2) := rfl
@[simp] theorem res_ite (c : Prop) [Decidable c] (x y : T α) : (if c then x else y).res o l = if c then x.res o l else y.res o l := by
  split <;> rfl

theorem res_ifTrace (x : T Unit) (h : x.res o l = .ok ()) : (ifTrace x).res o l = .ok () := by
  unfold ifTrace res at *
  dsimp only
  split
  · exact h
  · rfl

theorem res_each {f : α → T Unit} {as : List α} (h : ∀ a ∈ as, (f a).res o l = .ok ()) : (each f as).res o l = .ok () := by
  induction as with
  | nil => rfl
  | cons a as ih =>
    unfold each
    simp only [res_bind, h a (by simp), Res.ok_bind]
    exact ih fun a ha => h a (by simp [ha])

theorem res_fold (f : β → α → T β) (b : β) (as : List α) : (fold f b as).res o l = as.foldlM (fun b a => (f b a).res o l) b := by
  induction as generalizing b with
  | nil => rfl
  | cons a as ih =>
    unfold fold
    rw [res_bind, List.foldlM_cons]
    congr 1
    funext b
    exact ih b

theorem res_fold_ok {f : β → α → T β} {g : β → α → β} {b : β} {as : List α} (h : ∀ b, ∀ a ∈ as, (f b a).res o l = .ok (g b a)) :
    (fold f b as).res o l = .ok (as.foldl g b) := by
  induction as generalizing b with
  | nil => rfl
  | cons a as ih =>
    unfold fold
    rw [res_bind, h b a (by simp), Res.ok_bind]
    exact ih fun b a ha => h b a (by simp [ha])

end T

variable {o : Option Bool} {l : Nat}

/-! ## Classes and methods -/

/-- `cls.type_ids[0]` exists. -/
def Lattice.Named (L : Lattice) (c : Cls) : Prop := ∃ t, (L.typeIds c)[0]? = some t

theorem LatticeOk.named {p : Program} {L : Lattice} (h : LatticeOk p L) {c : Cls} (hc : c ∈ L.order) : L.Named c := by
  obtain ⟨cr, h1, h2⟩ := (h.mem_order c).1 hc
  have : cr.type ∈ L.typeIds c := (h.mem_typeIds c _).2 ⟨⟨cr, h1, rfl⟩, h2⟩
  cases e : L.typeIds c with
  | nil => simp [e] at this
  | cons t ts => exact ⟨t, by simp [e]⟩

theorem res_sayClass {L : Lattice} {c : Cls} (h : L.Named c) : (sayClass L c).res o l = .ok () := by
  obtain ⟨t, h⟩ := h
  exact res_ifTrace _ (by simp [h])

theorem res_classLine {L : Lattice} {c : Cls} (h : L.Named c) : (classLine L c).res o l = .ok () := by
  unfold classLine
  simp [res_sayClass h]

theorem res_sepBy {α : Type} {write : α → T Unit} {as : List α} (h : ∀ a ∈ as, (write a).res o l = .ok ()) : (sepBy write as).res o l = .ok () := by
  unfold sepBy
  simp only [res_bind, res_say, Res.ok_bind]
  rw [res_fold_ok (g := fun _ _ => ", ")]
  · rfl
  · intro b a ha
    simp [h a ha]

@[simp] theorem res_sayTypes (ts : List TypeId) : (sayTypes ts).res o l = .ok () := res_sepBy fun _ _ => rfl

theorem res_augmentClassesT {pl : Platform} {p : Program} (hac : Acyclic p) :
    (augmentClassesT pl p.rtti p.classes).res o l = augmentClasses pl p.rtti p.classes := by
  unfold augmentClassesT
  simp only [res_bind, res_line, Res.ok_bind, res_lift]
  rw [res_each (fun cr _ => by simp), Res.ok_bind]
  cases e : augmentClasses pl p.rtti p.classes with
  | err => rfl
  | ub => rfl
  | ok L =>
    have hL := augmentClasses_ok hac e
    rw [Res.ok_bind, res_ifTrace, Res.ok_bind]
    · rfl
    · simp only [res_bind, res_line, Res.ok_bind]
      apply res_each
      intro c hc
      have hN : ∀ x, Derives p c x ∨ Derives p x c → L.Named x := by
        intro x hx
        apply hL.named
        rcases hx with hx | hx
        · rcases Relation.ReflTransGen.cases_tail hx with rfl | ⟨y, _, hy⟩
          · exact hc
          · exact (hL.declared_mem _ _ hy).2
        · rcases Relation.ReflTransGen.cases_head hx with rfl | ⟨y, hy, _⟩
          · exact hc
          · exact (hL.declared_mem _ _ hy).1
      have hdb : ∀ x y, y ∈ L.db x → Derives p x y := fun x y hy => (hL.tb_sound x y (hL.db_sub x y hy)).to_reflTransGen
      simp only [res_indented, res_bind, res_start, res_say, res_line, Res.ok_bind]
      rw [res_sayClass (hL.named hc), Res.ok_bind, res_sepBy, Res.ok_bind, res_sepBy, Res.ok_bind, res_sepBy, Res.ok_bind]
      · intro x hx
        exact res_sayClass (hN x (.inr ((hL.mem_td c hc x).1 ((pl.iter_perm c _).mem_iff.1 hx))))
      · intro x hx
        exact res_sayClass (hN x (.inr (hdb x c ((hL.mem_dd c x).1 hx).2)))
      · intro x hx
        exact res_sayClass (hN x (.inl (hdb c x hx)))

theorem res_findClassesT {r : Rtti} {L : Lattice} {unknown : TypeId → T Unit} (hu : ∀ t, (unknown t).res o l = .ok ()) (ts : List TypeId) :
    (findClassesT r L unknown ts).res o l = findClasses r L ts := by
  induction ts with
  | nil => rfl
  | cons t ts ih =>
    unfold findClassesT findClasses
    simp only [res_bind, res_ite, hu, res_pure, ite_self, Res.ok_bind, res_lift, ih]
    rfl

theorem res_augmentOverriderT (r : Rtti) (L : Lattice) (mret : Option Cls) (ov : OverriderInfo) :
    (augmentOverriderT r L mret ov).res o l = augmentOverrider r L mret ov := by
  unfold augmentOverriderT augmentOverrider
  simp only [res_bind, res_line, Res.ok_bind, res_findClassesT (unknown := unknownOverriderParam) (fun _ => rfl)]
  congr 1
  funext vp
  cases mret with
  | none => rfl
  | some c =>
    dsimp only
    rw [res_bind, res_lift]
    rfl

theorem res_augmentOverridersT (r : Rtti) (L : Lattice) (mret : Option Cls) (os : List OverriderInfo) :
    (augmentOverridersT r L mret os).res o l = augmentOverriders r L mret os := by
  induction os with
  | nil => rfl
  | cons ov os ih =>
    unfold augmentOverridersT augmentOverriders
    simp only [res_bind, res_augmentOverriderT, ih]
    rfl

theorem res_augmentMethodsT (r : Rtti) (L : Lattice) (ms : List MethodInfo) : (augmentMethodsT r L ms).res o l = augmentMethods r L ms := by
  induction ms with
  | nil => rfl
  | cons m ms ih =>
    unfold augmentMethodsT augmentMethods augmentMethodT augmentMethod
    simp only [res_bind, res_line, res_sayTypes, res_say, Res.ok_bind, res_indented, res_findClassesT (unknown := unknownParam) (fun _ => rfl), res_augmentOverridersT, ih]
    rfl

theorem res_augmentT (r : Rtti) (L : Lattice) (ms : List MethodInfo) : (augmentT r L ms).res o l = augment r L ms := by
  unfold augmentT augment
  simp only [res_bind, res_line, Res.ok_bind, res_indented, res_augmentMethodsT, res_lift]
  rfl

/-! ## Slots -/

/-- The classes that are reached from those of the list are in it. -/
structure Closed (L : Lattice) : Prop where
  named : ∀ c ∈ L.order, L.Named c
  dd : ∀ c d, d ∈ L.dd c → d ∈ L.order
  td : ∀ c ∈ L.order, ∀ d ∈ L.td c, d ∈ L.order
  tb : ∀ c, ∀ b ∈ L.tb c, b ∈ L.order

theorem LatticeOk.closed {p : Program} {L : Lattice} (h : LatticeOk p L) : Closed L where
  named _ hc := h.named hc
  dd c d hd := ((h.mem_dd c d).1 hd).1
  td c hc d hd := by
    rcases Relation.ReflTransGen.cases_head ((h.mem_td c hc d).1 hd) with rfl | ⟨y, hy, _⟩
    · exact hc
    · exact (h.declared_mem _ _ hy).1
  tb c b hb := by
    obtain ⟨y, _, hy⟩ := Relation.TransGen.tail'_iff.1 (h.tb_sound c b hb)
    exact (h.declared_mem _ _ hy).2

theorem res_sayParam {L : Lattice} {ms : List Meth} {c : Cls} {mp : Nat × Nat} (hc : L.Named c) (h : mp ∈ usedByVp ms c) : (sayParam L ms c mp).res o l = .ok () := by
  obtain ⟨m, hm, _⟩ := mem_usedByVp.1 h
  unfold sayParam
  simp [res_sayClass hc, hm]

theorem res_numberSlotsT {L : Lattice} {ms : List Meth} {c : Cls} (hc : L.Named c) (slots : Nat × Nat → Nat) (next : Nat) (mps : List (Nat × Nat))
    (h : ∀ mp ∈ mps, mp ∈ usedByVp ms c) : (numberSlotsT L ms c slots next mps).res o l = .ok (numberSlots slots next mps) := by
  induction mps generalizing slots next with
  | nil => rfl
  | cons mp mps ih =>
    unfold numberSlotsT numberSlots
    simp only [res_bind, res_sayParam hc (h mp (by simp)), Res.ok_bind, res_say]
    exact ih _ _ fun mp hmp => h mp (by simp [hmp])

theorem res_assignTreeT {L : Lattice} (hL : Closed L) (ms : List Meth) (fuel : Nat) (s : SlotState) (c : Cls) (base : Nat) (hc : c ∈ L.order) :
    (assignTreeT L ms fuel s c base).res o l = .ok (assignTree L (usedByVp ms) fuel s c base) := by
  induction fuel generalizing s c base with
  | zero => rfl
  | succ fuel ih =>
    unfold assignTreeT assignTree
    simp only [res_bind, res_numberSlotsT (hL.named c hc) _ _ _ (fun _ h => h), Res.ok_bind]
    exact res_fold_ok fun s d hd => ih s d _ (hL.dd c d hd)

theorem res_reserveInT {L : Lattice} {bases : List Cls} (h : ∀ b ∈ bases, L.Named b) (from_ : Bits) (reserved : Cls → Bits) :
    (reserveInT L from_ reserved bases).res o l = .ok (reserveIn from_ reserved bases) := by
  unfold reserveInT reserveIn
  refine res_fold_ok (g := fun r b => Function.update r b (mergeInto from_ (r b))) ?_
  intro r b hb
  simp [res_classLine (h b hb)]

theorem res_assignCovariantT {L : Lattice} (hL : Closed L) (c : Cls) (s : SlotState) {cov : Cls} (hc : cov ∈ L.order) :
    (assignCovariantT L c s cov).res o l = .ok (assignCovariant L c s cov) := by
  unfold assignCovariantT assignCovariant
  by_cases h : cov ≠ c
  · rw [if_pos h, if_pos h]
    simp [res_classLine (hL.named cov hc), res_reserveInT (fun b hb => hL.named b (hL.tb cov b hb))]
  · rw [if_neg h, if_neg h]
    rfl

theorem res_assignParamT {pl : Platform} {L : Lattice} (hL : Closed L) {ms : List Meth} {c : Cls} (hc : c ∈ L.order) (s : SlotState) {mp : Nat × Nat} (h : mp ∈ usedByVp ms c) :
    (assignParamT pl L ms c s mp).res o l = .ok (assignParam pl L c s mp) := by
  unfold assignParamT assignParam
  simp only [res_bind, res_sayParam (hL.named c hc) h, Res.ok_bind, res_say, res_line, res_indented, res_reserveInT (fun b hb => hL.named b (hL.tb c b hb))]
  exact res_fold_ok fun s d hd => res_assignCovariantT hL c s (hL.td c hc d ((pl.iter_perm c _).mem_iff.1 hd))

theorem res_assignLatticeT {pl : Platform} {L : Lattice} (hL : Closed L) (ms : List Meth) (fuel : Nat) (s : SlotState) (c : Cls) (hc : c ∈ L.order) :
    (assignLatticeT pl L ms fuel s c).res o l = .ok (assignLattice pl L (usedByVp ms) fuel s c) := by
  induction fuel generalizing s c with
  | zero => rfl
  | succ fuel ih =>
    unfold assignLatticeT assignLattice
    by_cases h : c ∈ s.marked
    · rw [if_pos h, if_pos h]
      rfl
    · rw [if_neg h, if_neg h, res_bind, res_fold_ok (g := assignParam pl L c), Res.ok_bind]
      · exact res_fold_ok fun s d hd => ih s d (hL.dd c d hd)
      · exact fun s mp hmp => res_assignParamT hL hc s hmp

theorem res_assignSlotsT {pl : Platform} {L : Lattice} (hL : Closed L) (ms : List Meth) :
    (assignSlotsT pl L ms).res o l = .ok (assignSlots pl L (usedByVp ms)) := by
  unfold assignSlotsT assignSlots
  simp only [res_bind, res_line, Res.ok_bind, res_indented]
  rw [res_fold_ok (g := assignRoot pl L (usedByVp ms)), Res.ok_bind]
  · apply res_fold_ok
    intro s c hc
    unfold sizeVtblT sizeVtbl
    by_cases h : (s.used c).length = 0
    · rw [if_pos h, if_pos h]; rfl
    · rw [if_neg h, if_neg h]
      simp [res_sayClass (hL.named c hc)]
  · intro s c hc
    unfold assignRootT assignRoot
    simp only [res_ite, res_pure, res_indented, res_assignLatticeT hL ms _ s c hc, res_assignTreeT hL ms _ s c _ hc]
    split
    · split <;> rfl
    · rfl

end OpenMethod
