import Verif.Proof.Call
import Verif.Proof.Order

/-! # A call computes a function of the applicable overriders -/

namespace OpenMethod

open Spec Relation

open Classical in
/-- Decided version of `MoreSpecific`. -/
noncomputable def moreB (p : Program) (a b : OverriderInfo) : Bool := decide (MoreSpecific p a b)

open Classical in
/-- The applicable overriders, in order of registration. -/
noncomputable def applicable (p : Program) (m : MethodInfo) (xs : List Cls) : List OverriderInfo :=
  m.overriders.filter fun o => decide (Applicable p o xs)

/-- What happens when these overriders remain. -/
def resultOf (types : List TypeId) : List OverriderInfo → Res Nat
  | [] => .err (.noOverrider (badCallArity types) (badCallTypes types))
  | [o] => .ok o.pf
  | _ => .err (.ambiguousCall (badCallArity types) (badCallTypes types))

/-- A call, computed from the inheritance relation and the overriders in order of registration. -/
noncomputable def refCall (p : Program) (m : MethodInfo) (xs : List Cls) (types : List TypeId) : Res Nat :=
  resultOf types (survivors (moreB p) (applicable p m xs))

theorem filter_zipIdx_map {α : Type} (P : α → Bool) (L l : List α) (k : Nat) (h : ∀ j, L[k + j]? = l[j]?) :
    (((l.map P).zipIdx k).filter (·.1)).map (fun x => L[x.2]?) = (l.filter P).map some := by
  induction l generalizing k with
  | nil => rfl
  | cons a l ih =>
    have ih' := ih (k + 1) (by intro j; rw [show k + 1 + j = k + (j + 1) by omega, h]; rfl)
    have h0 : L[k]? = some a := by have := h 0; simpa using this
    rw [List.map_cons, List.zipIdx_cons]
    by_cases hp : P a = true
    · rw [List.filter_cons_of_pos (by simpa using hp), List.filter_cons_of_pos hp, List.map_cons, List.map_cons, ih', h0]
    · rw [List.filter_cons_of_neg (by simpa using hp), List.filter_cons_of_neg hp, ih']

theorem setBits_map {α : Type} (P : α → Bool) (l : List α) :
    (setBits (l.map P)).map (fun i => l[i]?) = (l.filter P).map some := by
  unfold setBits
  rw [List.map_map]
  exact filter_zipIdx_map P l l 0 (by simp)

variable {n : Bool} {pl : Platform} {p : Program} {c : Compiled}

theorem accepts_iff {L : Lattice} (hL : LatticeOk p L) (ts : List TypeId) (hts : ∀ t ∈ ts, p.rtti.ti t ∈ L.order) (xs : List Cls) :
    List.Forall₂ (fun v a => a ∈ L.td v) (ts.map p.rtti.ti) xs ↔ Accepts p (classesOf p ts) xs := by
  unfold Accepts classesOf
  induction ts generalizing xs with
  | nil => simp
  | cons t ts ih =>
    cases xs with
    | nil => simp
    | cons x xs =>
      simp only [List.map_cons, List.forall₂_cons]
      rw [ih (fun t ht => hts t (by simp [ht])), hL.mem_td _ (hts t (by simp))]

open Classical in
theorem argMask_eq {L : Lattice} (hL : LatticeOk p L) {m : MethodInfo} (hm : MethOk p L m) {xs : List Cls}
    (hlen : xs.length = m.vp.length) :
    argMask L (toMeth p.rtti L m).overriders xs = m.overriders.map fun o => decide (Applicable p o xs) := by
  have hlen' : ∀ o ∈ (toMeth p.rtti L m).overriders, o.vp.length = xs.length := by
    intro o ho
    simp only [toMeth, List.mem_map] at ho
    obtain ⟨o', ho', rfl⟩ := ho
    simp [hm.wf.overriders o' ho', hlen]
  apply List.ext_getElem?
  intro i
  have key := argMask_get L (toMeth p.rtti L m).overriders xs hlen' i
  rw [List.getElem?_map]
  cases ho : m.overriders[i]? with
  | none =>
    rw [Option.map_none, List.getElem?_eq_none_iff, argMask_length]
    simpa [toMeth] using List.getElem?_eq_none_iff.1 ho
  | some o =>
    rw [toMeth_overrider ho] at key
    simp only [Option.some.injEq, exists_eq_left'] at key
    rw [accepts_iff hL o.vp (hm.ovp o (List.mem_of_getElem? ho))] at key
    rw [Option.map_some]
    have hi : i < (argMask L (toMeth p.rtti L m).overriders xs).length := by
      rw [argMask_length]
      have := (List.getElem?_eq_some_iff.1 ho).1
      simpa [toMeth] using this
    rw [List.getElem?_eq_getElem hi] at key ⊢
    congr 1
    by_cases hA : Applicable p o xs
    · have := key.2 hA
      simp only [Option.some.injEq] at this
      rw [this]; simp [hA]
    · have hne : ¬ (argMask L (toMeth p.rtti L m).overriders xs)[i] = true := fun h => hA (key.1 (by rw [h]))
      simp [hA, hne]

/-- The survivors computed on indices are those computed on overriders. -/
theorem survivors_ref (hac : Acyclic p) {L : Lattice} (hL : LatticeOk p L) {m : MethodInfo} (hm : MethOk p L m) (is : List Nat)
    (os : List OverriderInfo) (h : is.map (fun i => m.overriders[i]?) = os.map some) :
    (survivors (moreAt L (toMeth p.rtti L m).overriders) is).map (fun i => m.overriders[i]?) =
      (survivors (moreB p) os).map some := by
  let more' : Option OverriderInfo → Option OverriderInfo → Bool := fun a b =>
    match a, b with
    | some a, some b => moreB p a b
    | _, _ => false
  rw [← survivors_map (fun i => m.overriders[i]?) (moreAt L (toMeth p.rtti L m).overriders) more' is, h,
    survivors_map some (moreB p) more' os]
  · intro x _ y _; rfl
  · intro i _ j _
    have := moreAt_iff hL hac hm i j
    rw [Bool.eq_iff_iff, this]
    simp only [Dominates, more']
    cases m.overriders[i]? with
    | none => simp
    | some a =>
      cases m.overriders[j]? with
      | none => simp
      | some b => simp [moreB]

/-- The function designated by a cell. -/
theorem enter_cellOf {L : Lattice} {m : MethodInfo} (types : List TypeId) (is : List Nat) (os : List OverriderInfo)
    (h : is.map (fun i => m.overriders[i]?) = os.map some) :
    ∃ f, pfOf (toMeth p.rtti L m) (cellOf is) = some f ∧ enter f types = resultOf types os ∧
      (∀ n, f = .user n ↔ ∃ o, os = [o] ∧ o.pf = n) ∧ ((∃ n, f = .user n) ∨ f = .notImplemented m.id ∨ f = .ambiguous m.id) := by
  match is, os with
  | [], [] => exact ⟨_, rfl, rfl, by simp, .inr (.inl rfl)⟩
  | [i], [o] =>
    simp only [List.map_cons, List.map_nil, List.cons.injEq, and_true] at h
    refine ⟨.user o.pf, ?_, rfl, by simp, .inl ⟨_, rfl⟩⟩
    simp only [cellOf, pfOf, toMeth_overrider h, Option.map_some]
  | i :: j :: is, o :: o' :: os => exact ⟨.ambiguous m.id, rfl, rfl, by simp, .inr (.inr rfl)⟩
  | [], _ :: _ => simp at h
  | _ :: _, [] => simp at h
  | [_], _ :: _ :: _ => simp at h
  | _ :: _ :: _, [_] => simp at h

theorem install_ok {gen : Nat} {rep : Report} {img : Image} (hv : p.Valid) (h : install pl n p gen = .ok (rep, img)) :
    ∃ c bases, compile pl n p = .ok c ∧ CompiledOk n pl p c ∧ writeGlobal c gen = .ok img ∧ ImageOk c gen bases img ∧
      c.report = rep ∧ augmentClasses pl p.rtti p.classes = .ok c.lattice := by
  unfold install at h
  rw [Res.bind_eq_ok] at h
  obtain ⟨c, hc, h⟩ := h
  rw [Res.bind_eq_ok] at h
  obtain ⟨img', hi, h⟩ := h
  simp only [Res.pure_eq, Res.ok.injEq, Prod.mk.injEq] at h
  obtain ⟨h1, rfl⟩ := h
  have C := compile_ok hv.acyclic hv.wf hc
  obtain ⟨bases, img'', hi', I⟩ := writeGlobal_ok C gen
  rw [hi] at hi'
  obtain rfl := Res.ok.inj hi'
  refine ⟨c, bases, hc, C, hi, I, h1, ?_⟩
  unfold compile at hc
  rw [Res.bind_eq_ok] at hc
  obtain ⟨L, hL, hc⟩ := hc
  rw [Res.bind_eq_ok] at hc
  obtain ⟨ms, _, hc⟩ := hc
  rw [Res.bind_eq_ok] at hc
  obtain ⟨vt, _, hc⟩ := hc
  rw [Res.bind_eq_ok] at hc
  obtain ⟨ts, _, hc⟩ := hc
  obtain rfl := Res.ok.inj hc
  exact hL

theorem callable_argsOk {L : Lattice} (hL : LatticeOk p L) {m : MethodInfo} (hm : MethOk p L m) {xs : List Cls}
    (h : Callable p m xs) : ArgsOk L (toMeth p.rtti L m) xs :=
  (accepts_iff hL m.vp hm.vp xs).2 h.1

open Classical in
/-- Return class used by option `n2216`. -/
noncomputable def retB (p : Program) (m : MethodInfo) (o : OverriderInfo) : Option Cls :=
  if CovariantReturn p m then some (p.rtti.ti o.ret) else none

open Classical in
/-- Decided version of `Derives`. -/
noncomputable def derB (p : Program) (x y : Cls) : Bool := decide (Derives p x y)

/-- What happens when these overriders remain, with or without option `n2216`. -/
def resultFor (n2216 : Bool) (types : List TypeId) (os : List OverriderInfo) : Res Nat :=
  if n2216 then
    match os.getLast? with
    | none => .err (.noOverrider (badCallArity types) (badCallTypes types))
    | some o => .ok o.pf
  else resultOf types os

theorem methodRet_eq {L : Lattice} (hL : LatticeOk p L) (m : MethodInfo) :
    (methodRet p.rtti L m.ret).isSome ↔ CovariantReturn p m := by
  unfold methodRet CovariantReturn
  rw [← hL.mem_order]
  split
  · rename_i h; simpa using h
  · rename_i h; simpa using h

/-- The overriders that remain, computed on indices, are those computed on overriders. -/
theorem remainL_ref {L : Lattice} (hL : LatticeOk p L) {m : MethodInfo} (hm : MethOk p L m) (is : List Nat)
    (os : List OverriderInfo) (h : is.map (fun i => m.overriders[i]?) = os.map some) :
    Res.map (List.map fun i => m.overriders[i]?) (remainL n (retAt (toMeth p.rtti L m).overriders) (derOf L.td) is) =
      Res.map (List.map some) (remainL n (retB p m) (derB p) os) := by
  let ret' : Option OverriderInfo → Option Cls := fun o => o.bind (retB p m)
  have hret : ∀ i o, m.overriders[i]? = some o → retAt (toMeth p.rtti L m).overriders i = retB p m o := by
    intro i o ho
    unfold retAt retB
    rw [toMeth_overrider ho]
    dsimp only
    have := methodRet_eq hL m
    by_cases hc : CovariantReturn p m
    · rw [if_pos hc]
      obtain ⟨x, hx⟩ := Option.isSome_iff_exists.1 (this.2 hc)
      rw [hx]; rfl
    · rw [if_neg hc]
      have : methodRet p.rtti L m.ret = none := by
        cases hx : methodRet p.rtti L m.ret with
        | none => rfl
        | some x => exact absurd (this.1 (by rw [hx]; rfl)) hc
      rw [this]; rfl
  have his : ∀ i ∈ is, ∃ o, m.overriders[i]? = some o := by
    intro i hi
    have : m.overriders[i]? ∈ os.map some := by rw [← h]; exact List.mem_map_of_mem hi
    obtain ⟨o, _, ho⟩ := List.mem_map.1 this
    exact ⟨o, ho.symm⟩
  rw [← remainL_map n (fun i => m.overriders[i]?) (retAt (toMeth p.rtti L m).overriders) ret' (derOf L.td) (derB p) is, h,
    remainL_map n some (retB p m) ret' (derB p) (derB p) os]
  · intro x _; rfl
  · intros; rfl
  · intro i hi
    obtain ⟨o, ho⟩ := his i hi
    rw [hret i o ho, ho]; rfl
  · intro i hi j hj c d hc hd
    obtain ⟨o, ho⟩ := his j hj
    have hd' := hret j o ho
    rw [hd] at hd'
    unfold retB at hd'
    split at hd'
    · rename_i hcov
      obtain rfl := Option.some.inj hd'
      have hreg := hm.oret o (List.mem_of_getElem? ho) ((methodRet_eq hL m).2 hcov)
      unfold derB derOf
      rw [decide_eq_decide, hL.mem_td _ hreg]
    · simp at hd'

/-- The function designated by a cell, with or without option `n2216`. -/
theorem enter_cellFor {L : Lattice} {m : MethodInfo} (types : List TypeId) (is : List Nat) (os : List OverriderInfo)
    (h : is.map (fun i => m.overriders[i]?) = os.map some) :
    ∃ f, pfOf (toMeth p.rtti L m) (cellFor n is) = some f ∧ enter f types = resultFor n types os ∧
      ((∃ k, f = .user k) ∨ f = .notImplemented m.id ∨ f = .ambiguous m.id) := by
  cases n with
  | false =>
    obtain ⟨f, h1, h2, _, h3⟩ := enter_cellOf (p := p) (L := L) types is os h
    exact ⟨f, h1, h2, h3⟩
  | true =>
    simp only [cellFor, resultFor, if_true]
    have hl := congrArg List.getLast? h
    rw [List.getLast?_map, List.getLast?_map] at hl
    cases h1 : is.getLast? with
    | none =>
      rw [h1] at hl
      cases h2 : os.getLast? with
      | none => exact ⟨_, rfl, rfl, .inr (.inl rfl)⟩
      | some o => rw [h2] at hl; simp at hl
    | some i =>
      rw [h1] at hl
      cases h2 : os.getLast? with
      | none => rw [h2] at hl; simp at hl
      | some o =>
        rw [h2] at hl
        simp only [Option.map_some, Option.some.injEq] at hl
        exact ⟨.user o.pf, by simp [pfOf, toMeth_overrider hl], rfl, .inl ⟨_, rfl⟩⟩

/-- What a call does, from the cell that it reads; `ks` are the parameters, virtual or not. -/
theorem call_cell_ks (hv : p.Valid) (C : CompiledOk n pl p c) {gen : Nat} {img : Image} {m : MethodInfo} (hmem : m ∈ p.methods)
    {ks : List Bool} {args : List (Res Ptr)} {xs : List Cls} (hok : ArgsOk c.lattice (toMeth p.rtti c.lattice m) xs) {t : MethTable} {rs : List CellResult}
    {cell : Cell} {f : Pf} {ss : List Nat} (hT : TableOk n pl c.lattice (toMeth p.rtti c.lattice m) t rs)
    (hcell : t.table[argOffset pl c.lattice (toMeth p.rtti c.lattice m) xs]? = some cell) (hf : pfOf (toMeth p.rtti c.lattice m) cell = some f)
    (hss : slotsStridesAt img m.id = some ss) (hres : resolve (readWord gen img.data) ss m.arity ks args = .ok f) (types : List TypeId) :
    ∃ left, remainL n (retB p m) (derB p) (survivors (moreB p) (applicable p m xs)) = .ok left ∧
      callMethod gen img { m with params := ks } args types = resultFor n types left := by
  have hM := C.methOk m hmem
  obtain ⟨r, surv, left, _, hcell', hC⟩ := hT.at hok
  rw [hcell] at hcell'
  obtain rfl := Option.some.inj hcell'
  have hlen : xs.length = m.vp.length := by
    have := hok.length_eq
    simpa [toMeth] using this.symm
  have hbits := setBits_map (fun o => @decide (Applicable p o xs) (Classical.propDecidable _)) m.overriders
  rw [← argMask_eq C.lat hM hlen] at hbits
  have hsv := survivors_ref hv.acyclic C.lat hM _ _ hbits
  rw [← hC.isSurv.eq] at hsv
  have hrem := remainL_ref (n := n) C.lat hM _ _ hsv
  rw [hC.isLeft, Res.map_ok, eq_comm, Res.map_eq_ok] at hrem
  obtain ⟨os, hos, hmap⟩ := hrem
  refine ⟨os, hos, ?_⟩
  obtain ⟨f', h1, h2, _⟩ := enter_cellFor (n := n) (p := p) (L := c.lattice) types _ _ hmap.symm
  rw [← hC.cell, hf] at h1
  obtain rfl := Option.some.inj h1
  unfold callMethod
  dsimp only [MethodInfo.arity]
  rw [hss, Res.ofOption_some, Res.ok_bind, show resolve (readWord gen img.data) ss m.vp.length ks args = .ok f from hres, Res.ok_bind, h2]

/-- What a call does, from the cell that it reads. -/
theorem call_cell (hv : p.Valid) (C : CompiledOk n pl p c) {gen : Nat} {img : Image} {m : MethodInfo} (hmem : m ∈ p.methods)
    {args : List (Res Ptr)} {xs : List Cls} (hok : ArgsOk c.lattice (toMeth p.rtti c.lattice m) xs) {t : MethTable} {rs : List CellResult}
    {cell : Cell} {f : Pf} {ss : List Nat} (hT : TableOk n pl c.lattice (toMeth p.rtti c.lattice m) t rs)
    (hcell : t.table[argOffset pl c.lattice (toMeth p.rtti c.lattice m) xs]? = some cell) (hf : pfOf (toMeth p.rtti c.lattice m) cell = some f)
    (hss : slotsStridesAt img m.id = some ss) (hres : resolve (readWord gen img.data) ss m.arity m.params args = .ok f) (types : List TypeId) :
    ∃ left, remainL n (retB p m) (derB p) (survivors (moreB p) (applicable p m xs)) = .ok left ∧
      callMethod gen img m args types = resultFor n types left :=
  call_cell_ks hv C hmem hok hT hcell hf hss hres types

theorem slotSafe_of_argsSafe {pl : Platform} {p : Program} {c : Compiled} (hac : Acyclic p) (hL : LatticeOk p c.lattice)
    (hm : c.meths = p.methods.map (toMeth p.rtti c.lattice)) (h : augmentClasses pl p.rtti p.classes = .ok c.lattice) {cs xs : List Cls}
    (hs : ArgsSafe p cs xs) (k : Nat) (v x : Cls) (hv : cs[k]? = some v) (hx : xs[k]? = some x) : SlotSafe c.lattice (usedByVp c.meths) v x := by
  obtain ⟨y, hy, h1⟩ := forall₂_get hs hv
  obtain rfl := Option.some.inj (hx.symm.trans hy)
  exact slotSafe_of_argSafe hac hL hm h h1

/-- What a call does, when slots do not conflict, with or without option `n2216`. -/
theorem call_gen' (hv : p.Valid) (C : CompiledOk n pl p c) {gen : Nat} {bases : List (Option Nat)} {img : Image}
    (I : ImageOk c gen bases img) {m : MethodInfo} (hmem : m ∈ p.methods) {args : List (Res Ptr)} {xs : List Cls}
    (hargs : ArgsFor (img.ptr gen) m.params args xs) (hcall : Callable p m xs)
    (hsafe : ∀ (k : Nat) (v x : Cls), (toMeth p.rtti c.lattice m).vp[k]? = some v → xs[k]? = some x → SlotSafe c.lattice (usedByVp c.meths) v x)
    (hcont : m.vp.length = 1 ∨ Contiguous m.params) (types : List TypeId) :
    ∃ left, remainL n (retB p m) (derB p) (survivors (moreB p) (applicable p m xs)) = .ok left ∧
      callMethod gen img m args types = resultFor n types left := by
  have hok := callable_argsOk C.lat (C.methOk m hmem) hcall
  obtain ⟨i, hi⟩ := List.getElem?_of_mem hmem
  obtain ⟨t, rs, cell, f, ss, _, hT, hcell, hf, hss, hres⟩ := resolve_ok C I hv.ids hi hargs hok hsafe hcont
  exact call_cell hv C hmem hok hT hcell hf hss hres types

/-- Classes in the first groups of the parameters from the `k`th one on. -/
theorem zero_classes (C : CompiledOk n pl p c) {m : MethodInfo} (hM : MethOk p c.lattice m) (os : List Ovr) (k : Nat) :
    ∃ zs : List Cls, List.Forall₂ (fun v z => z ∈ c.lattice.td v) ((toMeth p.rtti c.lattice m).vp.drop k) zs ∧
      ∀ (j : Nat) (v z : Cls), (toMeth p.rtti c.lattice m).vp[k + j]? = some v → zs[j]? = some z →
        groupIx (groupsOf pl c.lattice os (k + j) v) z = 0 := by
  have key : ∀ (vs : List Cls) (k : Nat), (∀ v ∈ vs, v ∈ c.lattice.order) →
      ∃ zs : List Cls, List.Forall₂ (fun v z => z ∈ c.lattice.td v) vs zs ∧
        ∀ (j : Nat) (v z : Cls), vs[j]? = some v → zs[j]? = some z → groupIx (groupsOf pl c.lattice os (k + j) v) z = 0 := by
    intro vs
    induction vs with
    | nil => intro k _; exact ⟨[], .nil, by simp⟩
    | cons v vs ih =>
      intro k hvs
      obtain ⟨z, hz, h0⟩ := group_zero C.toCompiledBase os k (hvs v (by simp))
      obtain ⟨zs, h1, h2⟩ := ih (k + 1) (fun v hv => hvs v (by simp [hv]))
      refine ⟨z :: zs, .cons hz h1, ?_⟩
      intro j v' z' hv' hz'
      cases j with
      | zero =>
        simp only [List.getElem?_cons_zero, Option.some.injEq] at hv' hz'
        subst hv' hz'
        exact h0
      | succ j =>
        rw [show k + (j + 1) = k + 1 + j by omega]
        exact h2 j v' z' (by simpa using hv') (by simpa using hz')
  obtain ⟨zs, h1, h2⟩ := key ((toMeth p.rtti c.lattice m).vp.drop k) k (by
    intro v hv
    obtain ⟨j, hj⟩ := List.getElem?_of_mem (List.mem_of_mem_drop hv)
    exact hM.vp_order hj)
  exact ⟨zs, h1, fun j v z hv hz => h2 j v z (by rw [List.getElem?_drop]; exact hv) hz⟩

/-- What a call does, with or without option `n2216`. -/
theorem call_gen {gen : Nat} {rep : Report} {img : Image} (hv : p.Valid) (h : install pl n p gen = .ok (rep, img))
    {m : MethodInfo} {args : List (Res Ptr)} {xs : List Cls} (hc : CallTo p gen img m args xs) (types : List TypeId) :
    ∃ left, remainL n (retB p m) (derB p) (survivors (moreB p) (applicable p m xs)) = .ok left ∧
      callMethod gen img m args types = resultFor n types left := by
  obtain ⟨c, bases, _, C, _, I, _, hL⟩ := install_ok hv h
  exact call_gen' hv C I hc.mem hc.args hc.callable (slotSafe_of_argsSafe hv.acyclic C.lat C.meths hL hc.order) hc.contiguous types

/-- As `call_ref`, for a method with other parameters that are not virtual. -/
theorem call_ref_ks {gen : Nat} {rep : Report} {img : Image} (hv : p.Valid) (h : install pl false p gen = .ok (rep, img))
    {m : MethodInfo} (hmem : m ∈ p.methods) {ks : List Bool} {args : List (Res Ptr)} {xs : List Cls} (hargs : ArgsFor (img.ptr gen) ks args xs) (hcall : Callable p m xs)
    (ho : ArgsSafe p (classesOf p m.vp) xs) (hcont : m.vp.length = 1 ∨ Contiguous ks) (types : List TypeId) :
    callMethod gen img { m with params := ks } args types = refCall p m xs types := by
  obtain ⟨c, bases, _, C, _, I, _, hL⟩ := install_ok hv h
  have hok := callable_argsOk C.lat (C.methOk m hmem) hcall
  obtain ⟨i, hi⟩ := List.getElem?_of_mem hmem
  obtain ⟨t, rs, cell, f, ss, _, hT, hcell, hf, hss, hres⟩ :=
    resolve_ok C I hv.ids hi hargs hok (slotSafe_of_argsSafe hv.acyclic C.lat C.meths hL ho) hcont
  obtain ⟨left, h1, h2⟩ := call_cell_ks hv C hmem hok hT hcell hf hss hres types
  rw [remainL_false] at h1
  obtain rfl := Res.ok.inj h1
  exact h2

/-- A call computes `refCall`. -/
theorem call_ref {gen : Nat} {rep : Report} {img : Image} (hv : p.Valid) (h : install pl false p gen = .ok (rep, img))
    {m : MethodInfo} {args : List (Res Ptr)} {xs : List Cls} (hc : CallTo p gen img m args xs) (types : List TypeId) :
    callMethod gen img m args types = refCall p m xs types := by
  obtain ⟨left, h1, h2⟩ := call_gen hv h hc types
  rw [remainL_false] at h1
  obtain rfl := Res.ok.inj h1
  exact h2

/-- What a call does when only the first `k` virtual arguments are looked at: the same as with other arguments for the remaining
parameters, which only depend on the method. -/
theorem call_gap {gen : Nat} {rep : Report} {img : Image} (hv : p.Valid) (h : install pl false p gen = .ok (rep, img))
    {m : MethodInfo} (hmem : m ∈ p.methods) {k : Nat} (hk : Leading m.params k) :
    ∃ zs, Accepts p (classesOf p (m.vp.drop k)) zs ∧ ∀ (args : List (Res Ptr)) (xs ys : List Cls) (types : List TypeId), xs.length = k →
      AnyCall p gen img m args (xs ++ ys) → ArgsSafe p (classesOf p (m.vp.take k)) xs →
      callMethod gen img m args types = refCall p m (xs ++ zs) types := by
  obtain ⟨c, bases, _, C, _, I, _, hL⟩ := install_ok hv h
  have hM := C.methOk m hmem
  obtain ⟨zs, h1, h2⟩ := zero_classes C hM (toMeth p.rtti c.lattice m).overriders k
  have hvp : (toMeth p.rtti c.lattice m).vp = m.vp.map p.rtti.ti := rfl
  have h1' : List.Forall₂ (fun v z => z ∈ c.lattice.td v) ((m.vp.drop k).map p.rtti.ti) zs := by
    rw [List.map_drop, ← hvp]; exact h1
  refine ⟨zs, (accepts_iff C.lat _ (fun t ht => hM.vp t (List.mem_of_mem_drop ht)) zs).1 h1', ?_⟩
  intro args xs ys types hx hc hs
  have hall := callable_argsOk C.lat hM hc.callable
  have hok : ArgsOk c.lattice (toMeth p.rtti c.lattice m) (xs ++ zs) := by
    have := List.forall₂_take_append _ _ _ hall
    rw [hx] at this
    have := List.rel_append this h1
    simp only [List.take_append_drop] at this
    exact this
  have hyz : ys.length = zs.length := by
    have e1 := hall.length_eq
    have e2 := hok.length_eq
    simp only [List.length_append] at e1 e2
    omega
  obtain ⟨i, hi⟩ := List.getElem?_of_mem hmem
  subst hx
  obtain ⟨t, rs, cell, f, ss, _, hT, hcell, hf, hss, hres⟩ := resolve_gap C I hv.ids hi hc.args hyz hok
    (fun k v x hv' hx => slotSafe_of_argsSafe hv.acyclic C.lat C.meths hL hs k v x (by
      rw [classesOf, List.map_take, List.getElem?_take_of_lt (List.getElem?_eq_some_iff.1 hx).1]; exact hv') hx) h2 hk
  obtain ⟨left, h3, h4⟩ := call_cell hv C hmem hok hT hcell hf hss hres types
  rw [remainL_false] at h3
  obtain rfl := Res.ok.inj h3
  exact h4

end OpenMethod
