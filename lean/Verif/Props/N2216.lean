import Verif.Proof.N2216
import Verif.Props.Covariant

/-! # C96: option `n2216` with one more `break` -/

namespace OpenMethod.Props

open Spec Examples

variable {pl : Platform} {p : Program} {gen : Nat} {rep : Report} {img : Image} {m : MethodInfo} {args : List (Res Ptr)} {xs : List Cls}

/-- C96: with the correction, `initialize` is never undefined. Compare with C38, which does not hold. -/
theorem C96 (hv : p.Valid) (pl : Platform) (gen : Nat) : installB pl p gen ≠ .ub := by
  rcases installB_cases hv pl gen with ⟨e, h, _⟩ | ⟨c, bases, img, _, _, _, _, h⟩ <;> simp [h]

/-- The correction changes nothing where the library is defined. -/
theorem C96_same (h : install pl true p gen ≠ .ub) : installB pl p gen = install pl true p gen :=
  ((installB_le pl p gen).resolve_left h).symm

/-- The same errors are reported as by the library, with and without the option. -/
theorem C96_errors (hv : p.Valid) (e : Err) : (installB pl p gen = .err e ↔ install pl true p gen = .err e) ∧
    (installB pl p gen = .err e ↔ install pl false p gen = .err e) := by
  have key : ∀ n, installB pl p gen = .err e ↔ install pl n p gen = .err e := by
    intro n
    rcases installB_cases hv pl gen with ⟨e', h, h'⟩ | ⟨c, bases, img, hL, C, _, _, h⟩
    · rw [h, h' n]
    · rw [h]
      simp only [reduceCtorEq, false_iff]
      intro he
      cases n with
      | true =>
        have := C96_same (p := p) (pl := pl) (gen := gen) (by rw [he]; simp)
        rw [h, he] at this
        simp at this
      | false =>
        unfold install at he
        rcases Res.bind_eq_err.1 he with he | ⟨c', hc', he⟩
        · rcases compile_shape he hv.acyclic hv.wf with ⟨e', _, h1⟩ | ⟨h1, _⟩ | ⟨_, _, h1, _⟩
          · rcases h1 with h1 | ⟨L, h1, h2⟩
            · rw [hL] at h1; simp at h1
            · unfold installB compileB at h
              simp [h1, h2] at h
          · simp at h1
          · simp at h1
        · have C' := compile_ok hv.acyclic hv.wf hc'
          obtain ⟨bases, img, hi, _⟩ := writeGlobal_ok C' gen
          rw [hi] at he
          simp at he
  exact ⟨key true, key false⟩

/-- What a call does. -/
theorem callB (hv : p.Valid) (h : installB pl p gen = .ok (rep, img)) (hc : CallTo p gen img m args xs) (types : List TypeId) :
    ∃ (L : Lattice) (cell : Cell) (f : Pf), LatticeOk p L ∧ MethOk p L m ∧
      CellB (domB p m) (retAt (toMeth p.rtti L m).overriders) L.td (appIdx p m xs) cell ∧
      pfOf (toMeth p.rtti L m) cell = some f ∧ callMethod gen img m args types = enter f types := by
  rcases installB_cases hv pl gen with ⟨e, h', _⟩ | ⟨c, bases, img', hL, C, hT, I, h'⟩
  · rw [h] at h'; simp at h'
  rw [h] at h'
  simp only [Res.ok.injEq, Prod.mk.injEq] at h'
  obtain ⟨_, rfl⟩ := h'
  have hM := C.methOk m hc.mem
  have hok := callable_argsOk C.lat hM hc.callable
  obtain ⟨i, hi⟩ := List.getElem?_of_mem hc.mem
  obtain ⟨t, cell, f, ss, ht, hcell, hf, hss, hres⟩ := resolve_ok_base C I hv.ids hi hc.args hok (slotSafe_of_argsSafe hv.acyclic C.lat C.meths hL hc.order) hc.contiguous
  obtain ⟨t', ht', hB⟩ := forall₂_get hT (show c.meths[i]? = some (toMeth p.rtti c.lattice m) by rw [C.meths, List.getElem?_map, hi]; rfl)
  obtain rfl := Option.some.inj (ht.symm.trans ht')
  obtain ⟨cell', hcell', hC⟩ := hB.cell xs hok
  obtain rfl := Option.some.inj (hcell.symm.trans hcell')
  have hlen : xs.length = m.vp.length := by
    have := hok.length_eq
    simpa [toMeth] using this.symm
  have hmore : moreAt c.lattice (toMeth p.rtti c.lattice m).overriders = domB p m := by
    funext i j
    rw [Bool.eq_iff_iff, moreAt_iff C.lat hv.acyclic hM, domB_iff]
  rw [argMask_eq C.lat hM hlen, hmore] at hC
  refine ⟨c.lattice, cell, f, C.lat, hM, hC, hf, ?_⟩
  unfold callMethod
  rw [hss, Res.ofOption_some, Res.ok_bind, hres, Res.ok_bind]

/-- The overrider that runs is one that the first elimination leaves, and there is one unless none is applicable. -/
theorem C96_applicable (hv : p.Valid) (h : installB pl p gen = .ok (rep, img)) (hc : CallTo p gen img m args xs) (types : List TypeId) :
    (∃ o ∈ m.overriders, Applicable p o xs ∧ callMethod gen img m args types = .ok o.pf) ∨
      (∀ i, ¬ ApplicableAt p m xs i) ∧ ∃ a ts, callMethod gen img m args types = .err (.noOverrider a ts) := by
  obtain ⟨L, cell, f, _, _, hC, hf, hr⟩ := callB hv h hc types
  rw [hr]
  by_cases h0 : appIdx p m xs = []
  · right
    obtain rfl := hC.none h0
    obtain rfl := Option.some.inj hf
    exact ⟨fun i hi => by simpa [h0] using mem_appIdx.2 hi, _, _, rfl⟩
  · left
    obtain ⟨i, hi, rfl⟩ := hC.some h0
    obtain ⟨o, ho, hA⟩ := mem_appIdx.1 ((surv_survivors _ _).sub.subset hi)
    simp only [pfOf, toMeth, List.getElem?_map, Option.map_map, Option.map_eq_some_iff] at hf
    obtain ⟨o', ho', rfl⟩ := hf
    obtain rfl := Option.some.inj (ho.symm.trans ho')
    exact ⟨o, List.mem_of_getElem? ho, hA, rfl⟩

/-- C39 for the corrected version, when the applicable overriders that are dominated are dominated by undominated ones. This
includes the programs for which the library is undefined. -/
theorem C96_prefers (hv : p.Valid) (h : installB pl p gen = .ok (rep, img)) (hc : CallTo p gen img m args xs) (hf : Founded p m xs) (types : List TypeId) :
    Prefers p m xs (callMethod gen img m args types) := by
  obtain ⟨L, cell, f, hL, hM, hC, hpf, hr⟩ := callB hv h hc types
  have hmem : ∀ i, i ∈ survivors (domB p m) (appIdx p m xs) ↔ Undominated p m xs i := hf.mem_survIdx
  have hret : CovariantReturn p m → ∀ (j : Nat) (b : OverriderInfo), m.overriders[j]? = some b →
      retAt (toMeth p.rtti L m).overriders j = some (p.rtti.ti b.ret) := by
    intro hcov j b hb
    rw [retAt_eq hL hb, retB, if_pos hcov]
  have hovr : ∀ i, cell = .ovr i → ∃ o, m.overriders[i]? = some o ∧ enter f types = .ok o.pf := by
    rintro i rfl
    simp only [pfOf, toMeth, List.getElem?_map, Option.map_map, Option.map_eq_some_iff] at hpf
    obtain ⟨o, ho, rfl⟩ := hpf
    exact ⟨o, ho, rfl⟩
  rw [hr]
  refine ⟨?_, ?_, ?_⟩
  · intro a ts
    by_cases h0 : appIdx p m xs = []
    · obtain rfl := hC.none h0
      obtain rfl := Option.some.inj hpf
      simp [enter]
    · obtain ⟨i, _, hi⟩ := hC.some h0
      obtain ⟨o, _, ho⟩ := hovr i hi
      rw [ho]; simp
  · intro g hg
    by_cases h0 : appIdx p m xs = []
    · obtain rfl := hC.none h0
      obtain rfl := Option.some.inj hpf
      simp [enter] at hg
    · obtain ⟨i, hi, hci⟩ := hC.some h0
      obtain ⟨o, ho, ho'⟩ := hovr i hci
      rw [ho'] at hg
      exact ⟨i, o, (hmem i).1 hi, ho, Res.ok.inj hg⟩
  · intro hcov i o hu ho hbest
    have hci := hC.best i ((hmem i).2 hu) ?_ ?_
    · obtain ⟨o', ho', hr'⟩ := hovr i hci
      obtain rfl := Option.some.inj (ho.symm.trans ho')
      exact hr'
    · intro j hj
      obtain ⟨b, hb, _⟩ := ((hmem j).1 hj).1
      rw [hret hcov j b hb]; rfl
    · intro j hj hne rx ry hrx hry
      obtain ⟨b, hb, _⟩ := ((hmem j).1 hj).1
      have hp := hbest j b ((hmem j).1 hj) hb hne
      rw [hret hcov i o ho] at hrx
      rw [hret hcov j b hb] at hry
      obtain rfl := Option.some.inj hrx
      obtain rfl := Option.some.inj hry
      have hro := hM.oret o (List.mem_of_getElem? ho) ((methodRet_eq hL m).2 hcov)
      have hrb := hM.oret b (List.mem_of_getElem? hb) ((methodRet_eq hL m).2 hcov)
      refine ⟨(hL.mem_td _ hrb _).2 hp.1, fun hd => ?_⟩
      exact properlyDerives_asymm hv.acyclic hp ⟨(hL.mem_td _ hro _).1 hd, Ne.symm hp.2⟩

/-! Examples: the program of `C38_refuted`. -/

/-- A call in a program, with the correction. -/
def runB (p : Program) (m : MethodInfo) (xs : List Cls) : Option (Res Nat) :=
  match installB .std p 0 with
  | .ok (_, img) => some (callMethod 0 img m (Check.mkArgs (img.ptr 0) m.params xs) [])
  | _ => none

example : isUb (install .std true coUb 0) = true := by decide +kernel

/-- The overrider with the best return type runs. -/
example : runB coUb coUp [2, 2, 2] = some (.ok 2) := by decide +kernel

/-- The hypotheses of `C96_prefers` are met. -/
example : ∃ rep img args, coUb.Valid ∧ installB .std coUb 0 = .ok (rep, img) ∧ CallTo coUb 0 img coUp args [2, 2, 2] ∧ Founded coUb coUp [2, 2, 2] ∧
    callMethod 0 img coUp args [] = .ok 2 := by
  have hv : Check.validB coUb = true := by decide +kernel
  have h : runB coUb coUp [2, 2, 2] = some (.ok 2) := by decide +kernel
  unfold runB at h
  split at h
  · next rep img he =>
    refine ⟨rep, img, _, Check.valid hv, he, Check.callTo hv (by decide +kernel) 0 img, fun j hj => .inl ?_, Option.some.inj h⟩
    have hall : ∀ j ∈ Check.apps coUb coUp [2, 2, 2], j ∈ Check.bests coUb coUp [2, 2, 2] := by decide +kernel
    exact (Check.mem_bests (Check.validB_ranked hv)).1 (hall j ((Check.mem_apps (Check.validB_ranked hv)).2 hj))
  · simp at h

/-- Elsewhere, as the library. -/
example : runB coProg coDown [2, 2, 2] = some (.ok 1) ∧ runN .std true coProg coDown [2, 2, 2] = some (.ok 1) := by decide +kernel

end OpenMethod.Props
