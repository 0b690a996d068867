import Verif.Proof.Outcome
import Verif.Proof.Accept

/-! # The elimination by return types: when it is defined, and what remains -/

namespace OpenMethod

open Spec

/-! ## On lists -/

theorem sweepRetL_ne_ub {α : Type} (ret : α → Option Cls) (der : Cls → Cls → Bool) (a : α) (l : List α) (ha : (ret a).isSome)
    (hl : ∀ b ∈ l, (ret b).isSome)
    (h : ∀ b c, [b, c].Sublist l → ∀ ra rb, ret a = some ra → ret b = some rb → der rb ra = false) :
    sweepRetL ret der (some a) l ≠ .ub := by
  induction l with
  | nil => simp [sweepRetL]
  | cons b r ih =>
    obtain ⟨ra, hra⟩ := Option.isSome_iff_exists.1 ha
    obtain ⟨rb, hrb⟩ := Option.isSome_iff_exists.1 (hl b (by simp))
    have ih' := ih (fun c hc => hl c (by simp [hc])) (fun c d hs => h c d (hs.cons b))
    rw [sweepRetL]
    simp only [Res.ofOption_some, Res.ok_bind, hra, hrb]
    split
    · rename_i hd
      cases r with
      | nil => simp [sweepRetL]
      | cons c r =>
        have := h b c ((List.nil_sublist r).cons_cons c |>.cons_cons b) ra rb hra hrb
        rw [this] at hd; simp at hd
    · split
      · exact ih'
      · intro hu
        rw [Res.bind_eq_ub] at hu
        rcases hu with hu | ⟨s, _, hu⟩
        · exact ih' hu
        · simp at hu

theorem elimRetL_ne_ub {α : Type} (ret : α → Option Cls) (der : Cls → Cls → Bool) (n : Nat) (l : List α)
    (hl : ∀ b ∈ l, (ret b).isSome)
    (h : ∀ a b c, [a, b, c].Sublist l → ∀ ra rb, ret a = some ra → ret b = some rb → der rb ra = false) :
    elimRetL ret der n l ≠ .ub := by
  induction n generalizing l with
  | zero => cases l <;> simp [elimRetL]
  | succ n ih =>
    cases l with
    | nil => simp [elimRetL]
    | cons a r =>
      intro hu
      rw [elimRetL, Res.bind_eq_ub] at hu
      rcases hu with hu | ⟨s, hs, hu⟩
      · exact sweepRetL_ne_ub ret der a r (hl a (by simp)) (fun b hb => hl b (by simp [hb]))
          (fun b c hbc => h a b c (hbc.cons_cons a)) hu
      · rw [Res.bind_eq_ub] at hu
        have hsub := (sweepRetL_sublist ret der (some a) r hs).1
        rcases hu with hu | ⟨l', _, hu⟩
        · exact ih s.2 (fun b hb => hl b (by simp [hsub.subset hb])) (fun x y z hx => h x y z ((hx.trans hsub).cons a)) hu
        · simp at hu

theorem remainL_ne_ub {α : Type} (n : Bool) (ret : α → Option Cls) (der : Cls → Cls → Bool) (l : List α)
    (hl : (∀ b ∈ l, (ret b).isSome) ∨ ∀ b ∈ l, ret b = none)
    (h : ∀ a b c, [a, b, c].Sublist l → ∀ ra rb, ret a = some ra → ret b = some rb → der rb ra = false) :
    remainL n ret der l ≠ .ub := by
  unfold remainL
  split
  · simp
  · split
    · split
      · simp
      · rename_i hlen _ hlast
        rcases hl with hl | hl
        · exact elimRetL_ne_ub ret der _ l hl h
        · exfalso
          apply hlast
          cases hg : l.getLast? with
          | none => rfl
          | some b => simp [hl b (List.mem_of_getLast? hg)]
    · simp

/-- A candidate whose return type is better than all others. -/
theorem sweepRetL_best {α : Type} (ret : α → Option Cls) (der : Cls → Cls → Bool) (b : α) (l : List α)
    (h : ∀ a ∈ l, ∀ ra rb, ret a = some ra → ret b = some rb → der rb ra = true ∧ der ra rb = false)
    {s : Option α × List α} (hs : sweepRetL ret der (some b) l = .ok s) : s = (some b, []) := by
  induction l with
  | nil => simp only [sweepRetL, Res.ok.injEq] at hs; exact hs.symm
  | cons a r ih =>
    simp only [sweepRetL, Res.bind_eq_ok, Res.ofOption_eq_ok, Option.some.injEq] at hs
    obtain ⟨i, rfl, rb, hrb, ra, hra, hs⟩ := hs
    obtain ⟨h1, h2⟩ := h a (by simp) ra rb hra hrb
    rw [if_neg (by simp [h2]), if_pos h1] at hs
    exact ih (fun a ha => h a (by simp [ha])) hs

theorem sweepRetL_other {α : Type} (ret : α → Option Cls) (der : Cls → Cls → Bool) (a b : α) (l : List α) (hb : b ∈ l)
    (h : ∀ ra rb, ret a = some ra → ret b = some rb → der rb ra = true ∧ der ra rb = false)
    {s : Option α × List α} (hs : sweepRetL ret der (some a) l = .ok s) : s.1 = none ∧ b ∈ s.2 := by
  induction l generalizing s with
  | nil => simp at hb
  | cons c r ih =>
    simp only [sweepRetL, Res.bind_eq_ok, Res.ofOption_eq_ok, Option.some.injEq] at hs
    obtain ⟨i, rfl, ra, hra, rc, hrc, hs⟩ := hs
    split at hs
    · rw [Res.bind_eq_ok] at hs
      obtain ⟨s', hs', hs⟩ := hs
      simp only [Res.pure_eq, Res.ok.injEq] at hs
      subst hs
      cases r with
      | nil =>
        simp only [sweepRetL, Res.ok.injEq] at hs'
        subst hs'
        simp at hb
        exact ⟨rfl, by simp [hb]⟩
      | cons d r => simp [sweepRetL] at hs'
    · rename_i hd
      rcases List.mem_cons.1 hb with rfl | hb
      · exact absurd (h ra rc hra hrc).1 hd
      · split at hs
        · exact ih hb hs
        · rw [Res.bind_eq_ok] at hs
          obtain ⟨s', hs', hs⟩ := hs
          simp only [Res.pure_eq, Res.ok.injEq] at hs
          subst hs
          exact ⟨(ih hb hs').1, by simp [(ih hb hs').2]⟩

theorem elimRetL_best {α : Type} (ret : α → Option Cls) (der : Cls → Cls → Bool) (n : Nat) (b : α) (l : List α) (hn : l.length ≤ n)
    (hb : b ∈ l) (hnd : l.Nodup)
    (h : ∀ a ∈ l, a ≠ b → ∀ ra rb, ret a = some ra → ret b = some rb → der rb ra = true ∧ der ra rb = false)
    {l' : List α} (hl : elimRetL ret der n l = .ok l') : l' = [b] := by
  induction n generalizing l l' with
  | zero => simp at hn; subst hn; simp at hb
  | succ n ih =>
    cases l with
    | nil => simp at hb
    | cons a r =>
      rw [elimRetL, Res.bind_eq_ok] at hl
      obtain ⟨s, hs, hl⟩ := hl
      rw [Res.bind_eq_ok] at hl
      obtain ⟨l2, hl2, hl⟩ := hl
      simp only [Res.pure_eq, Res.ok.injEq] at hl
      subst hl
      rw [List.nodup_cons] at hnd
      by_cases hab : a = b
      · subst hab
        have := sweepRetL_best ret der a r (fun c hc => h c (by simp [hc]) (by rintro rfl; exact hnd.1 hc)) hs
        subst this
        have : l2 = [] := by cases n <;> (simp only [elimRetL, Res.ok.injEq] at hl2; exact hl2.symm)
        subst this
        rfl
      · have hbr : b ∈ r := by
          rcases List.mem_cons.1 hb with rfl | hb
          · exact absurd rfl hab
          · exact hb
        obtain ⟨h1, h2⟩ := sweepRetL_other ret der a b r hbr (h a (by simp) hab) hs
        have hsub := (sweepRetL_sublist ret der (some a) r hs).1
        rw [h1]
        have hlen := hsub.length_le
        simp only [List.length_cons] at hn
        exact ih s.2 (by omega) h2 (hsub.nodup hnd.2) (fun c hc => h c (by simp [hsub.subset hc])) hl2

theorem remainL_best {α : Type} (ret : α → Option Cls) (der : Cls → Cls → Bool) (b : α) (l : List α)
    (hb : b ∈ l) (hnd : l.Nodup) (hsome : ∀ a ∈ l, (ret a).isSome)
    (h : ∀ a ∈ l, a ≠ b → ∀ ra rb, ret a = some ra → ret b = some rb → der rb ra = true ∧ der ra rb = false)
    {l' : List α} (hl : remainL true ret der l = .ok l') : l' = [b] := by
  unfold remainL at hl
  split at hl
  · obtain rfl := Res.ok.inj hl
    match l, hb with
    | [c], hb => simp at hb; rw [hb]
    | c :: d :: l, _ => simp at *
  · rw [if_pos rfl] at hl
    split at hl
    · rename_i hlast
      exfalso
      obtain ⟨z, hz⟩ : ∃ z, l.getLast? = some z := ⟨_, List.getLast?_eq_some_getLast (List.ne_nil_of_mem hb)⟩
      rw [hz] at hlast
      have := hsome z (List.mem_of_getLast? hz)
      simp at hlast
      rw [hlast] at this; simp at this
    · exact elimRetL_best ret der _ b l le_rfl hb hnd h hl

/-! ## In a method -/

variable {n : Bool} {pl : Platform} {p : Program} {c : Compiled}

theorem retAt_eq {L : Lattice} (hL : LatticeOk p L) {m : MethodInfo} {i : Nat} {o : OverriderInfo} (ho : m.overriders[i]? = some o) :
    retAt (toMeth p.rtti L m).overriders i = retB p m o := by
  unfold retAt retB
  rw [toMeth_overrider ho]
  dsimp only
  have := methodRet_eq hL m
  by_cases hc : CovariantReturn p m
  · rw [if_pos hc]
    obtain ⟨x, hx⟩ := Option.isSome_iff_exists.1 (this.2 hc)
    rw [hx]; rfl
  · rw [if_neg hc]
    have : methodRet p.rtti L m.ret = none := by
      cases hx : methodRet p.rtti L m.ret with
      | none => rfl
      | some x => exact absurd (this.1 (by rw [hx]; rfl)) hc
    rw [this]; rfl

theorem setBits_sorted (mask : Mask) : (setBits mask).Pairwise (· < ·) := by
  unfold setBits
  rw [List.pairwise_map]
  refine List.Pairwise.filter _ ?_
  rw [← List.pairwise_map (f := Prod.snd) (R := (· < ·)), List.zipIdx_map_snd]
  exact List.pairwise_lt_range'

/-- What makes the elimination by return types undefined. -/
theorem methUb_triple (hac : Acyclic p) {L : Lattice} (hL : LatticeOk p L) {m : MethodInfo} (hm : MethOk p L m)
    (h : MethUb n L (toMeth p.rtti L m)) :
    CovariantReturn p m ∧ ∃ xs i j k a b, Callable p m xs ∧ i < j ∧ j < k ∧
      ApplicableAt p m xs i ∧ ApplicableAt p m xs j ∧ ApplicableAt p m xs k ∧
      (∀ x ∈ [i, j, k], ∀ y ∈ [i, j, k], ¬ Dominates p m x y) ∧ m.overriders[i]? = some a ∧ m.overriders[j]? = some b ∧
      Derives p (p.rtti.ti b.ret) (p.rtti.ti a.ret) := by
  obtain ⟨xs, hargs, hub⟩ := h
  have hlen : xs.length = m.vp.length := by
    have := hargs.length_eq
    simpa [toMeth] using this.symm
  have hcall : Callable p m xs := by
    refine ⟨(accepts_iff hL m.vp hm.vp xs).1 hargs, fun x hx => ?_⟩
    obtain ⟨q, hq, hxq⟩ : ∃ q ∈ m.vp.map p.rtti.ti, x ∈ L.td q := by
      obtain ⟨i, hi⟩ := List.getElem?_of_mem hx
      obtain ⟨q, hq, hR⟩ := forall₂_get_left (List.Forall₂.flip hargs) hi
      exact ⟨q, List.mem_of_getElem? hq, hR⟩
    obtain ⟨t, ht, rfl⟩ := List.mem_map.1 hq
    have hd := (hL.mem_td _ (hm.vp t ht) x).1 hxq
    have hreg := (hL.mem_order (p.rtti.ti t)).1 (hm.vp t ht)
    rcases Relation.ReflTransGen.cases_head hd with rfl | ⟨b, ⟨cr, hcr, hx, _⟩, _⟩
    · exact hreg
    · exact ⟨cr, hcr, hx⟩
  have hmask : ∀ i, i ∈ setBits (argMask L (toMeth p.rtti L m).overriders xs) ↔ ApplicableAt p m xs i := by
    intro i
    rw [argMask_eq hL hm hlen]
    exact mem_appIdx
  -- the list of candidates whose elimination is undefined
  obtain ⟨is, hsub, hub⟩ : ∃ is, is.Sublist (setBits (argMask L (toMeth p.rtti L m).overriders xs)) ∧
      remainL n (retAt (toMeth p.rtti L m).overriders) (derOf L.td) (survivors (moreAt L (toMeth p.rtti L m).overriders) is) = .ub := by
    rcases hub with h | ⟨left, _, h⟩
    · exact ⟨_, .refl _, h⟩
    · exact ⟨_, List.filter_sublist, h⟩
  have S := surv_survivors (moreAt L (toMeth p.rtti L m).overriders) is
  have hap : ∀ i ∈ survivors (moreAt L (toMeth p.rtti L m).overriders) is, ApplicableAt p m xs i := fun i hi =>
    (hmask i).1 (hsub.subset (S.sub.subset hi))
  by_cases hcov : CovariantReturn p m
  · refine ⟨hcov, ?_⟩
    by_contra hno
    refine remainL_ne_ub n _ _ _ (.inl ?_) ?_ hub
    · intro i hi
      obtain ⟨o, ho, _⟩ := hap i hi
      rw [retAt_eq hL ho, retB, if_pos hcov]; rfl
    · intro i j k hs ri rj hri hrj
      by_contra hd
      apply hno
      have hmem : ∀ x ∈ [i, j, k], x ∈ survivors (moreAt L (toMeth p.rtti L m).overriders) is := fun x hx => hs.subset hx
      have hlt : [i, j, k].Pairwise (· < ·) := (setBits_sorted _).sublist (hs.trans (S.sub.trans hsub))
      simp only [List.pairwise_cons, List.mem_cons, List.not_mem_nil, or_false, forall_eq_or_imp, forall_eq] at hlt
      obtain ⟨a, ha, hA⟩ := hap i (hmem i (by simp))
      obtain ⟨b, hb, hB⟩ := hap j (hmem j (by simp))
      refine ⟨xs, i, j, k, a, b, hcall, hlt.1.1, hlt.2.1, ⟨a, ha, hA⟩, ⟨b, hb, hB⟩, hap k (hmem k (by simp)), ?_, ha, hb, ?_⟩
      · intro x hx y hy hdom
        have hxy := (moreAt_iff hL hac hm x y).2 hdom
        have hne : x ≠ y := by rintro rfl; exact dominates_irrefl m x hdom
        have : Std.Symm (fun x y => moreAt L (toMeth p.rtti L m).overriders x y = false ∧
            moreAt L (toMeth p.rtti L m).overriders y x = false) := ⟨fun _ _ h => ⟨h.2, h.1⟩⟩
        have hP := (S.apart.sublist hs).forall hx hy hne
        rw [hP.1] at hxy
        simp at hxy
      · rw [retAt_eq hL ha, retB, if_pos hcov] at hri
        rw [retAt_eq hL hb, retB, if_pos hcov] at hrj
        obtain rfl := Option.some.inj hri
        obtain rfl := Option.some.inj hrj
        simp only [derOf, decide_eq_false_iff_not, not_not] at hd
        exact (hL.mem_td _ (hm.oret a (List.mem_of_getElem? ha) ((methodRet_eq hL m).2 hcov)) _).1 hd
  · exfalso
    refine remainL_ne_ub n _ _ _ (.inr ?_) ?_ hub
    · intro i hi
      obtain ⟨o, ho, _⟩ := hap i hi
      rw [retAt_eq hL ho, retB, if_neg hcov]
    · intro i j k hs ri rj hri
      obtain ⟨o, ho, _⟩ := hap i (hs.subset (by simp))
      rw [retAt_eq hL ho, retB, if_neg hcov] at hri
      simp at hri

/-- What makes `initialize` undefined. -/
theorem install_ub (hv : p.Valid) {gen : Nat} (h : install pl n p gen = .ub) :
    n = true ∧ ∃ m ∈ p.methods, CovariantReturn p m ∧ ∃ xs i j k a b, Callable p m xs ∧ i < j ∧ j < k ∧
      ApplicableAt p m xs i ∧ ApplicableAt p m xs j ∧ ApplicableAt p m xs k ∧
      (∀ x ∈ [i, j, k], ∀ y ∈ [i, j, k], ¬ Dominates p m x y) ∧ m.overriders[i]? = some a ∧ m.overriders[j]? = some b ∧
      Derives p (p.rtti.ti b.ret) (p.rtti.ti a.ret) := by
  have hn : n = true := by
    rcases install_cases (pl := pl) (n := n) hv gen with ⟨t, h1, _⟩ | ⟨_, ⟨_, _, _, _, _, _, _, h1, _⟩ | ⟨_, ⟨_, _, h1⟩ | ⟨_, h2⟩⟩⟩
    · rw [h] at h1; simp at h1
    · rw [h] at h1; simp at h1
    · rw [h] at h1; simp at h1
    · exact h2
  refine ⟨hn, ?_⟩
  unfold install at h
  rw [Res.bind_eq_ub] at h
  rcases h with h | ⟨c, hc, h⟩
  · rcases compile_shape h hv.acyclic hv.wf with ⟨e, he, _⟩ | ⟨_, hcase⟩ | ⟨_, _, he, _⟩
    · simp at he
    · rcases hcase with h1 | ⟨L, h1, h2⟩
      · exact absurd h1 augmentClasses_ub
      · have hL := augmentClasses_ok hv.acyclic h1
        rcases h2 with h2 | ⟨ms, h2, m, hm, hub⟩
        · rcases augment_cases hL hv.wf (augmentClasses_known h1) with ⟨t, h3, _⟩ | ⟨_, ⟨_, _, _, _, _, _, _, h3, _⟩ | ⟨_, h3, _⟩⟩ <;>
          · rw [h2] at h3; simp at h3
        · have hok := methOk_of_augment hL h2 hv.wf
          obtain ⟨hms, _, _⟩ := augment_ok.1 h2
          rw [hms] at hm
          obtain ⟨m', hm', rfl⟩ := List.mem_map.1 hm
          exact ⟨m', hm', methUb_triple hv.acyclic hL (hok m' hm') hub⟩
    · simp at he
  · have C := compile_ok hv.acyclic hv.wf hc
    obtain ⟨bases, img, hi, _⟩ := writeGlobal_ok C gen
    rw [hi] at h
    simp at h

/-- Return class of an overrider designated by index. -/
noncomputable def retIdx (p : Program) (m : MethodInfo) (i : Nat) : Option Cls := (m.overriders[i]?).bind (retB p m)

/-- What a call does, in terms of indices of overriders. -/
theorem call_idx {gen : Nat} {rep : Report} {img : Image} (hv : p.Valid) (h : install pl n p gen = .ok (rep, img))
    {m : MethodInfo} {args : List (Res Ptr)} {xs : List Cls} (hc : CallTo p gen img m args xs) (types : List TypeId) :
    ∃ left os, remainL n (retIdx p m) (derB p) (survIdx p m (appIdx p m xs)) = .ok left ∧
      left.map (fun i => m.overriders[i]?) = os.map some ∧ callMethod gen img m args types = resultFor n types os := by
  obtain ⟨os, h1, h2⟩ := call_gen hv h hc types
  have hmap := survIdx_map (p := p) m _ _ (appIdx_map p m xs)
  have e1 := remainL_map n (fun i => m.overriders[i]?) (retIdx p m) (fun o => o.bind (retB p m)) (derB p) (derB p)
    (survIdx p m (appIdx p m xs)) (fun _ _ => rfl) (fun _ _ _ _ _ _ _ _ => rfl)
  have e2 := remainL_map n some (retB p m) (fun o => o.bind (retB p m)) (derB p) (derB p)
    (survivors (moreB p) (applicable p m xs)) (fun _ _ => rfl) (fun _ _ _ _ _ _ _ _ => rfl)
  rw [hmap, e2, h1, Res.map_ok, eq_comm, Res.map_eq_ok] at e1
  obtain ⟨left, hl, he⟩ := e1
  exact ⟨left, os, hl, he, h2⟩

end OpenMethod
