import Verif.SpecCall
import Verif.SpecChange
import Verif.Proof.SafeOrder
import Mathlib.Logic.Relation

/-!
# Deciding the specification on concrete programs

Boolean versions of the predicates of the specification, for programs in which bases have smaller numbers than the classes
derived from them. They serve to show that the hypotheses of theorems are met by concrete programs, and to compute the
documented outcome of a call in counterexamples.
-/

namespace OpenMethod.Check

open Spec Relation

/-- Bases have smaller numbers than derived classes. -/
def ranked (p : Program) : Bool :=
  p.classes.all fun cr => cr.bases.all fun t => p.rtti.ti t ≤ p.rtti.ti cr.type

/-- Bases declared for `d`. -/
def basesOf (p : Program) (d : Cls) : List Cls :=
  ((p.classes.filter fun cr => p.rtti.ti cr.type = d).flatMap fun cr => cr.bases.map p.rtti.ti).filter (· ≠ d)

theorem mem_basesOf {p : Program} {d b : Cls} : b ∈ basesOf p d ↔ DeclaredBase p d b := by
  simp only [basesOf, List.mem_filter, List.mem_flatMap, List.mem_map, DeclaredBase]
  constructor
  · rintro ⟨⟨cr, ⟨hcr, hd⟩, t, ht, rfl⟩, hne⟩
    exact ⟨cr, hcr, by simpa using hd, t, ht, rfl, fun h => by simp [h] at hne⟩
  · rintro ⟨cr, hcr, hd, t, ht, rfl, hne⟩
    exact ⟨⟨cr, ⟨hcr, by simpa using hd⟩, t, ht, rfl⟩, by simpa using Ne.symm hne⟩

/-- Classes reached from `d` in at most `n` steps. -/
def ancN (p : Program) : Nat → Cls → List Cls
  | 0, d => [d]
  | n + 1, d => d :: (basesOf p d).flatMap (ancN p n)

/-- A class and all its bases, direct or not. -/
def anc (p : Program) (d : Cls) : List Cls := ancN p d d

theorem declared_lt {p : Program} (hr : ranked p = true) {d b : Cls} (h : DeclaredBase p d b) : b < d := by
  obtain ⟨cr, hcr, rfl, t, ht, rfl, hne⟩ := h
  simp only [ranked, List.all_eq_true, decide_eq_true_eq] at hr
  exact Nat.lt_of_le_of_ne (hr cr hcr t ht) (Ne.symm hne)

theorem derives_le {p : Program} (hr : ranked p = true) {d b : Cls} (h : Derives p d b) : b ≤ d := by
  induction h with
  | refl => exact Nat.le_refl _
  | tail _ h ih => exact Nat.le_trans (Nat.le_of_lt (declared_lt hr h)) ih

theorem ancN_sound {p : Program} {n : Nat} {d x : Cls} (h : x ∈ ancN p n d) : Derives p d x := by
  induction n generalizing d with
  | zero => simp [ancN] at h; subst h; exact .refl
  | succ n ih =>
    simp only [ancN, List.mem_cons, List.mem_flatMap] at h
    rcases h with rfl | ⟨b, hb, hx⟩
    · exact .refl
    · exact ReflTransGen.head (mem_basesOf.1 hb) (ih hx)

theorem ancN_complete {p : Program} (hr : ranked p = true) {d x : Cls} (h : Derives p d x) : ∀ n, d ≤ n → x ∈ ancN p n d := by
  induction h using ReflTransGen.head_induction_on with
  | refl => intro n _; cases n <;> simp [ancN]
  | head hdb _ ih =>
    intro n hn
    have hlt := declared_lt hr hdb
    cases n with
    | zero => exact absurd (Nat.lt_of_lt_of_le hlt hn) (Nat.not_lt_zero _)
    | succ n =>
      simp only [ancN, List.mem_cons, List.mem_flatMap]
      exact Or.inr ⟨_, mem_basesOf.2 hdb, ih n (Nat.le_of_lt_succ (Nat.lt_of_lt_of_le hlt hn))⟩

theorem mem_anc {p : Program} (hr : ranked p = true) {d x : Cls} : x ∈ anc p d ↔ Derives p d x :=
  ⟨ancN_sound, fun h => ancN_complete hr h _ (Nat.le_refl _)⟩

theorem acyclic {p : Program} (hr : ranked p = true) : Acyclic p := fun _ _ h1 h2 =>
  Nat.le_antisymm (derives_le hr h2) (derives_le hr h1)

instance (m : MethodInfo) : Decidable m.WF :=
  decidable_of_iff (0 < m.vp.length ∧ m.params.count true = m.vp.length ∧ ∀ o ∈ m.overriders, o.vp.length = m.vp.length)
    ⟨fun ⟨a, b, c⟩ => ⟨a, b, c⟩, fun ⟨a, b, c⟩ => ⟨a, b, c⟩⟩

/-- Sufficient for `Program.Valid`. -/
def validB (p : Program) : Bool :=
  ranked p && decide (∀ m ∈ p.methods, m.WF) && decide (p.methods.map (·.id)).Nodup

theorem validB_ranked {p : Program} (h : validB p = true) : ranked p = true := by
  simp only [validB, Bool.and_eq_true] at h; exact h.1.1

theorem valid {p : Program} (h : validB p = true) : p.Valid := by
  simp only [validB, Bool.and_eq_true, decide_eq_true_eq] at h
  exact ⟨acyclic h.1.1, h.1.2, h.2⟩

/-- Decides `ListsAncestors`. -/
def listsB (p : Program) (x : Cls) : Bool := (anc p x).all fun b => b = x || (basesOf p x).contains b

theorem lists {p : Program} (hr : ranked p = true) {x : Cls} : listsB p x = true ↔ ListsAncestors p x := by
  simp only [listsB, List.all_eq_true, ListsAncestors, ProperlyDerives, Bool.or_eq_true, decide_eq_true_eq, List.contains_iff_mem,
    mem_anc hr, mem_basesOf]
  constructor
  · rintro h b ⟨hb, hne⟩
    exact (h b hb).resolve_left (Ne.symm hne)
  · intro h b hb
    by_cases he : b = x
    · exact .inl he
    · exact .inr (h b ⟨hb, Ne.symm he⟩)

/-- Sufficient for `FoundIn`; `pre` are the records before `post`. -/
def foundB (p : Program) (x b : Cls) (pre : List ClassInfo) : List ClassInfo → Bool
  | [] => false
  | cr :: post =>
    (p.rtti.ti cr.type = x && cr.bases.any fun t => x ≠ p.rtti.ti t && (anc { p with classes := pre } (p.rtti.ti t)).contains b) ||
    foundB p x b (pre ++ [cr]) post

theorem found {p : Program} {x b : Cls} {pre post : List ClassInfo} (h : foundB p x b pre post = true) : FoundIn p (pre ++ post) x b := by
  induction post generalizing pre with
  | nil => simp [foundB] at h
  | cons cr post ih =>
    simp only [foundB, Bool.or_eq_true, Bool.and_eq_true, decide_eq_true_eq, List.any_eq_true, List.contains_iff_mem] at h
    rcases h with ⟨hx, t, ht, hne, hb⟩ | h
    · exact ⟨pre, cr, post, rfl, hx, t, ht, hne, ancN_sound hb⟩
    · simpa using ih h

/-- Sufficient for `AllFound`. -/
def orderB (p : Program) (x : Cls) : Bool := (anc p x).all fun b => b = x || foundB p x b [] p.classes

theorem allFound {p : Program} (hr : ranked p = true) {x : Cls} (h : orderB p x = true) : AllFound p x := by
  simp only [orderB, List.all_eq_true, Bool.or_eq_true, decide_eq_true_eq, mem_anc hr] at h
  rintro b ⟨hb, hne⟩
  simpa using found ((h b hb).resolve_left (Ne.symm hne))

theorem order {p : Program} (hr : ranked p = true) {x : Cls} (h : orderB p x = true) : OrderSafe p x := (allFound hr h).orderSafe

def contigB (ps : List Bool) : Bool := ((ps.dropWhile (· = false)).dropWhile (· = true)).all (· = false)

theorem takeWhile_rep (b : Bool) (l : List Bool) : ∃ n, l = List.replicate n b ++ l.dropWhile (· = b) := by
  induction l with
  | nil => exact ⟨0, by simp⟩
  | cons c l ih =>
    by_cases h : c = b
    · subst h
      obtain ⟨n, hn⟩ := ih
      refine ⟨n + 1, ?_⟩
      simp only [List.dropWhile, decide_true, List.replicate_succ, List.cons_append]
      rw [← hn]
    · exact ⟨0, by simp [h]⟩

theorem contig {ps : List Bool} (h : contigB ps = true) : Contiguous ps := by
  obtain ⟨a, ha⟩ := takeWhile_rep false ps
  obtain ⟨n, hn⟩ := takeWhile_rep true (ps.dropWhile (· = false))
  refine ⟨a, n, ((ps.dropWhile (· = false)).dropWhile (· = true)).length, ?_⟩
  conv_lhs => rw [ha, hn]
  rw [List.append_assoc]
  congr 2
  simp only [contigB, List.all_eq_true, decide_eq_true_eq] at h
  exact List.eq_replicate_iff.2 ⟨rfl, h⟩

/-- Arguments of the given classes for virtual parameters, and invalid ones for other parameters. -/
def mkArgs (ptr : Cls → Ptr) : List Bool → List Cls → List (Res Ptr)
  | true :: ks, x :: xs => .ok (ptr x) :: mkArgs ptr ks xs
  | false :: ks, xs => .ub :: mkArgs ptr ks xs
  | _, _ => []

theorem mkArgs_for (ptr : Cls → Ptr) : ∀ (ps : List Bool) (xs : List Cls), ps.count true = xs.length → ArgsFor ptr ps (mkArgs ptr ps xs) xs
  | [], [], _ => .nil
  | [], _ :: _, h => by simp at h
  | true :: ks, [], h => by simp at h
  | true :: ks, x :: xs, h => .virt x (mkArgs_for ptr ks xs (by simpa using h))
  | false :: ks, xs, h => by
    have := mkArgs_for ptr ks xs (by simpa using h)
    cases xs <;> exact .other _ this

def acceptsB (p : Program) : List Cls → List Cls → Bool
  | [], [] => true
  | q :: qs, a :: as => (anc p a).contains q && acceptsB p qs as
  | _, _ => false

theorem accepts {p : Program} (hr : ranked p = true) : ∀ {qs as : List Cls}, acceptsB p qs as = true ↔ Accepts p qs as
  | [], [] => by simp [acceptsB, Accepts]
  | [], _ :: _ => by simp [acceptsB, Accepts]
  | _ :: _, [] => by simp [acceptsB, Accepts]
  | q :: qs, a :: as => by
    have := accepts (p := p) hr (qs := qs) (as := as)
    simp only [Accepts] at this
    simp [acceptsB, Accepts, this, mem_anc hr]

def registeredB (p : Program) (x : Cls) : Bool := p.classes.any fun cr => p.rtti.ti cr.type = x

theorem registered {p : Program} {x : Cls} : registeredB p x = true ↔ Registered p x := by
  simp [registeredB, Registered]

def callableB (p : Program) (m : MethodInfo) (xs : List Cls) : Bool :=
  acceptsB p (classesOf p m.vp) xs && xs.all (registeredB p)

theorem callable {p : Program} (hr : ranked p = true) {m : MethodInfo} {xs : List Cls} (h : callableB p m xs = true) :
    Callable p m xs := by
  simp only [callableB, Bool.and_eq_true, List.all_eq_true, registered] at h
  exact ⟨(accepts hr).1 h.1, h.2⟩

/-- Sufficient for `CallTo`. -/
def callB (p : Program) (m : MethodInfo) (xs : List Cls) : Bool :=
  p.methods.contains m && callableB p m xs && xs.all (orderB p) && (decide (m.vp.length = 1) || contigB m.params)

theorem callTo {p : Program} (hv : validB p = true) {m : MethodInfo} {xs : List Cls} (h : callB p m xs = true) (gen : Nat) (img : Image) :
    CallTo p gen img m (mkArgs (img.ptr gen) m.params xs) xs := by
  have hr := validB_ranked hv
  simp only [callB, Bool.and_eq_true, List.contains_iff_mem, Bool.or_eq_true, decide_eq_true_eq, List.all_eq_true] at h
  obtain ⟨⟨⟨hm, hc⟩, ho⟩, hk⟩ := h
  have hcl := callable hr hc
  refine ⟨hm, mkArgs_for _ _ _ ?_, hcl, OrderSafe.call (fun x hx => order hr (ho x hx)) hm hcl.1, hk.imp id contig⟩
  rw [((valid hv).wf m hm).kinds, ← hcl.1.length_eq]
  simp [classesOf]

/-- Sufficient for `AnyCall`. -/
def anyCallB (p : Program) (m : MethodInfo) (xs : List Cls) : Bool := p.methods.contains m && callableB p m xs

theorem anyCall {p : Program} (hv : validB p = true) {m : MethodInfo} {xs : List Cls} (h : anyCallB p m xs = true) (gen : Nat)
    (img : Image) : AnyCall p gen img m (mkArgs (img.ptr gen) m.params xs) xs := by
  have hr := validB_ranked hv
  simp only [anyCallB, Bool.and_eq_true, List.contains_iff_mem] at h
  have hcl := callable hr h.2
  refine ⟨h.1, mkArgs_for _ _ _ ?_, hcl⟩
  rw [((valid hv).wf m h.1).kinds, ← hcl.1.length_eq]
  simp [classesOf]

/-- Computes `MoreSpecific`. -/
def moreB (p : Program) (a b : OverriderInfo) : Bool :=
  let xy := (classesOf p a.vp).zip (classesOf p b.vp)
  (xy.any fun (x, y) => (anc p x).contains y && x ≠ y) && (xy.all fun (x, y) => !((anc p y).contains x && y ≠ x))

theorem mem_zip {α β : Type} {as : List α} {bs : List β} {a : α} {b : β} :
    (a, b) ∈ as.zip bs ↔ ∃ i : Nat, as[i]? = some a ∧ bs[i]? = some b := by
  rw [List.mem_iff_getElem?]
  simp only [List.getElem?_zip_eq_some]

theorem more {p : Program} (hr : ranked p = true) {a b : OverriderInfo} : moreB p a b = true ↔ MoreSpecific p a b := by
  simp only [moreB, MoreSpecific, Bool.and_eq_true, List.any_eq_true, List.all_eq_true, Prod.exists, Prod.forall, mem_zip,
    List.contains_iff_mem, mem_anc hr, Bool.not_eq_true', ProperlyDerives, decide_eq_true_eq,
    ← Bool.not_eq_true]
  constructor
  · rintro ⟨⟨x, y, ⟨i, hx, hy⟩, hd⟩, h2⟩
    exact ⟨⟨i, x, y, hx, hy, hd⟩, fun i x y hx hy => h2 x y ⟨i, hx, hy⟩⟩
  · rintro ⟨⟨i, x, y, hx, hy, hd⟩, h2⟩
    exact ⟨⟨x, y, ⟨i, hx, hy⟩, hd⟩, fun x y ⟨i, hx, hy⟩ => h2 i x y hx hy⟩

def applicableAtB (p : Program) (m : MethodInfo) (xs : List Cls) (i : Nat) : Bool :=
  match m.overriders[i]? with
  | some o => acceptsB p (classesOf p o.vp) xs
  | none => false

theorem applicableAt {p : Program} (hr : ranked p = true) {m : MethodInfo} {xs : List Cls} {i : Nat} :
    applicableAtB p m xs i = true ↔ ApplicableAt p m xs i := by
  unfold applicableAtB ApplicableAt Applicable
  cases m.overriders[i]? with
  | none => simp
  | some o => simp [accepts hr]

def dominatesB (p : Program) (m : MethodInfo) (i j : Nat) : Bool :=
  match m.overriders[i]?, m.overriders[j]? with
  | some a, some b => moreB p a b
  | _, _ => false

theorem dominates {p : Program} (hr : ranked p = true) {m : MethodInfo} {i j : Nat} :
    dominatesB p m i j = true ↔ Dominates p m i j := by
  unfold dominatesB Dominates
  cases m.overriders[i]? <;> cases m.overriders[j]? <;> simp [more hr]

/-- Indices of applicable overriders. -/
def apps (p : Program) (m : MethodInfo) (xs : List Cls) : List Nat :=
  (List.range m.overriders.length).filter (applicableAtB p m xs)

theorem mem_apps {p : Program} (hr : ranked p = true) {m : MethodInfo} {xs : List Cls} {i : Nat} :
    i ∈ apps p m xs ↔ ApplicableAt p m xs i := by
  simp only [apps, List.mem_filter, List.mem_range, applicableAt hr, and_iff_right_iff_imp]
  rintro ⟨o, ho, _⟩
  exact (List.getElem?_eq_some_iff.1 ho).1

/-- Indices of undominated applicable overriders. -/
def bests (p : Program) (m : MethodInfo) (xs : List Cls) : List Nat :=
  (apps p m xs).filter fun i => (apps p m xs).all fun j => !dominatesB p m j i

theorem mem_bests {p : Program} (hr : ranked p = true) {m : MethodInfo} {xs : List Cls} {i : Nat} :
    i ∈ bests p m xs ↔ Undominated p m xs i := by
  simp only [bests, List.mem_filter, mem_apps hr, Undominated, List.all_eq_true, Bool.not_eq_true', ← Bool.not_eq_true, dominates hr]

/-- The documented outcome, computed. -/
def expected (p : Program) (m : MethodInfo) (xs : List Cls) : Outcome :=
  if apps p m xs = [] then .noOverrider
  else match bests p m xs with
    | [i] => .run i
    | _ => .ambiguous

theorem expected_spec {p : Program} (hr : ranked p = true) (m : MethodInfo) (xs : List Cls) : Expected p m xs (expected p m xs) := by
  unfold expected
  have ha := fun i => mem_apps hr (m := m) (xs := xs) (i := i)
  have hb := fun i => mem_bests hr (m := m) (xs := xs) (i := i)
  have hnd : (bests p m xs).Nodup := (List.nodup_range.filter _).filter _
  split
  · intro i hi
    have := (ha i).2 hi
    simp_all
  · have hex : ∃ i, ApplicableAt p m xs i := by
      obtain ⟨i, hi⟩ := List.exists_mem_of_ne_nil _ ‹_›
      exact ⟨i, (ha i).1 hi⟩
    split
    · next i he =>
      rw [he] at hb
      exact ⟨(hb i).1 (by simp), fun j hj => by simpa using (hb j).2 hj⟩
    · next hne =>
      refine ⟨hex, ?_⟩
      rintro ⟨i, hi, hu⟩
      refine hne i ?_
      exact List.perm_singleton.1 ((List.perm_ext_iff_of_nodup hnd (by simp)).2 fun j => by
        simp only [List.mem_singleton, hb]
        exact ⟨hu j, by rintro rfl; exact hi⟩)

/-- Decides `Settled`. -/
def settledB (p : Program) (m : MethodInfo) (xs : List Cls) : Bool :=
  (apps p m xs).isEmpty || 1 < (bests p m xs).length || (apps p m xs).any fun i => (apps p m xs).all fun j => j = i || dominatesB p m i j

theorem settled {p : Program} (hr : ranked p = true) {m : MethodInfo} {xs : List Cls} : settledB p m xs = true ↔ Settled p m xs := by
  have ha := fun i => mem_apps hr (m := m) (xs := xs) (i := i)
  have hb := fun i => mem_bests hr (m := m) (xs := xs) (i := i)
  have hnd : (bests p m xs).Nodup := (List.nodup_range.filter _).filter _
  have h2 : 1 < (bests p m xs).length ↔ ∃ i j, i ≠ j ∧ Undominated p m xs i ∧ Undominated p m xs j := by
    simp only [← hb]
    generalize bests p m xs = l at hnd
    match l with
    | [] => simp
    | [a] =>
      simp only [List.length_singleton, Nat.lt_irrefl, List.mem_singleton, false_iff]
      rintro ⟨i, j, hne, rfl, rfl⟩
      exact hne rfl
    | a :: b :: l =>
      refine iff_of_true (by simp) ⟨a, b, ?_, by simp, by simp⟩
      rintro rfl
      simp at hnd
  unfold settledB Settled SettledOn
  rw [Bool.or_eq_true, Bool.or_eq_true, or_assoc]
  refine or_congr ?_ (or_congr ?_ ?_)
  · rw [List.isEmpty_iff, List.eq_nil_iff_forall_not_mem]
    simp only [ha]
  · rw [decide_eq_true_eq, h2]
    rfl
  · simp only [List.any_eq_true, List.all_eq_true, Bool.or_eq_true, decide_eq_true_eq, ha, dominates hr]
    refine exists_congr fun i => and_congr_right fun _ => forall_congr' fun j => imp_congr_right fun _ => ?_
    rw [or_iff_not_imp_left]

/-- Decides `Does`. -/
def doesB (m : MethodInfo) (r : Res Nat) : Outcome → Bool
  | .run i => match m.overriders[i]? with
    | some o => r = .ok o.pf
    | none => false
  | .noOverrider => match r with
    | .err (.noOverrider _ _) => true
    | _ => false
  | .ambiguous => match r with
    | .err (.ambiguousCall _ _) => true
    | _ => false

theorem does {m : MethodInfo} {r : Res Nat} {o : Outcome} (h : Does m r o) : doesB m r o = true := by
  cases o with
  | run i => obtain ⟨o, ho, rfl⟩ := h; simp [doesB, ho]
  | noOverrider => obtain ⟨a, t, rfl⟩ := h; rfl
  | ambiguous => obtain ⟨a, t, rfl⟩ := h; rfl

/-- Decides that two programs with the same methods and run-time type information have the same inheritance. -/
def sameB (p p' : Program) : Bool :=
  ranked p && ranked p' && (p.classes ++ p'.classes).all fun cr =>
    let d := p.rtti.ti cr.type
    registeredB p d && registeredB p' d && (anc p d).all (anc p' d).contains && (anc p' d).all (anc p d).contains

theorem sameInheritance {p p' : Program} (h1 : p'.rtti = p.rtti) (h2 : p'.methods = p.methods) (h : sameB p p' = true) :
    SameInheritance p p' := by
  simp only [sameB, Bool.and_eq_true, List.all_eq_true, List.mem_append, List.contains_iff_mem] at h
  obtain ⟨⟨hr, hr'⟩, h⟩ := h
  have hreg : ∀ c, Registered p' c ↔ Registered p c := by
    intro c
    constructor
    · rintro ⟨cr, hcr, rfl⟩
      rw [h1]
      exact registered.1 (h cr (.inr hcr)).1.1.1
    · rintro ⟨cr, hcr, rfl⟩
      exact registered.1 (h cr (.inl hcr)).1.1.2
  refine ⟨h1, h2, hreg, fun a b => ?_⟩
  by_cases ha : Registered p a
  · obtain ⟨cr, hcr, rfl⟩ := ha
    have := h cr (.inl hcr)
    rw [← mem_anc hr, ← mem_anc hr']
    exact ⟨this.2 b, this.1.2 b⟩
  · have key : ∀ {q : Program}, ¬ Registered q a → (Derives q a b ↔ a = b) := by
      intro q hq
      constructor
      · intro hd
        rcases Relation.ReflTransGen.cases_head hd with e | ⟨c, ⟨cr, hcr, e, _⟩, _⟩
        · exact e
        · exact absurd ⟨cr, hcr, e⟩ hq
      · rintro rfl
        exact .refl
    rw [key ha, key fun h => ha ((hreg a).1 h)]

end OpenMethod.Check
