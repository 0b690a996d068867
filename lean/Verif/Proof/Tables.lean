import Verif.Proof.Cells
import Mathlib.Data.List.Forall2
import Mathlib.Tactic.Ring

/-! # Dispatch tables: the cell designated by the groups of the arguments -/

namespace OpenMethod

/-! ## Positions -/

/-- Linear position of a cell given the sizes of the dimensions and one group index per dimension, first dimension
first. -/
def offsetOf : Nat → List Nat → List Nat → Nat
  | s, n :: ns, g :: gs => g * s + offsetOf (s * n) ns gs
  | _, _, _ => 0

theorem offsetOf_scale (s : Nat) (ns gs : List Nat) : offsetOf s ns gs = s * offsetOf 1 ns gs := by
  induction ns generalizing s gs with
  | nil => simp [offsetOf]
  | cons n ns ih =>
    cases gs with
    | nil => simp [offsetOf]
    | cons g gs =>
      simp only [offsetOf]
      rw [ih (s * n), ih (1 * n)]
      ring

theorem cellIndex_snoc (ds : List (List Mask)) (gs : List Nat) (hl : ds.length = gs.length) (d : List Mask) (g : Nat) :
    cellIndex (ds ++ [d]) (gs ++ [g]) = cellIndex ds gs * d.length + g := by
  induction ds generalizing gs with
  | nil =>
    obtain rfl : gs = [] := List.eq_nil_of_length_eq_zero hl.symm
    simp [cellIndex, cellCount]
  | cons e ds ih =>
    cases gs with
    | nil => simp at hl
    | cons h gs =>
      simp only [List.cons_append, cellIndex]
      rw [ih gs (by simpa using hl)]
      have : cellCount (ds ++ [d]) = cellCount ds * d.length := by simp [cellCount]
      rw [this]
      ring

theorem cellIndex_reverse (ds : List (List Mask)) (gs : List Nat) (hl : ds.length = gs.length) :
    cellIndex ds.reverse gs.reverse = offsetOf 1 (ds.map List.length) gs := by
  induction ds generalizing gs with
  | nil =>
    obtain rfl : gs = [] := List.eq_nil_of_length_eq_zero hl.symm
    rfl
  | cons d ds ih =>
    cases gs with
    | nil => simp at hl
    | cons g gs =>
      rw [List.reverse_cons, List.reverse_cons, cellIndex_snoc _ _ (by simpa using hl), ih gs (by simpa using hl)]
      simp only [List.map_cons, offsetOf]
      rw [offsetOf_scale (1 * d.length)]
      ring

/-- Every position is designated by group indices. -/
theorem exists_cellIndex (ds : List (List Mask)) (j : Nat) (hj : j < cellCount ds) :
    ∃ gs, List.Forall₂ (fun d g => g < d.length) ds gs ∧ cellIndex ds gs = j := by
  induction ds generalizing j with
  | nil =>
    simp [cellCount] at hj
    exact ⟨[], .nil, by simp [cellIndex, hj]⟩
  | cons d ds ih =>
    have hc : cellCount (d :: ds) = d.length * cellCount ds := by simp [cellCount]
    rw [hc] at hj
    have hpos : 0 < cellCount ds := by
      rcases Nat.eq_zero_or_pos (cellCount ds) with h | h
      · rw [h] at hj; simp at hj
      · exact h
    obtain ⟨gs, h1, h2⟩ := ih (j % cellCount ds) (Nat.mod_lt _ hpos)
    refine ⟨j / cellCount ds :: gs, .cons ?_ h1, ?_⟩
    · rw [Nat.div_lt_iff_lt_mul hpos]; exact hj
    · rw [cellIndex, h2, Nat.mul_comm]
      exact Nat.div_add_mod j (cellCount ds)

/-! ## Groups of the arguments -/

/-- Index of the group that contains a class. -/
def groupIx (gs : List Group) (c : Cls) : Nat := gs.findIdx (fun g => decide (c ∈ g.2))

theorem groupIx_eq {mask : Cls → Mask} {cs : List Cls} {gs : List Group} (h : GroupsOk mask cs gs) {n : Nat} {g : Group}
    {c : Cls} (hn : gs[n]? = some g) (hc : c ∈ g.2) : groupIx gs c = n := by
  have hlt : groupIx gs c < gs.length := by
    unfold groupIx
    rw [List.findIdx_lt_length]
    exact ⟨g, List.mem_of_getElem? hn, by simpa using hc⟩
  have hp := List.findIdx_getElem (w := hlt)
  have hp' : c ∈ (gs[groupIx gs c]).2 := by simpa using (show decide (c ∈ (gs[groupIx gs c]).2) = true from hp)
  refine h.index_unique (List.getElem?_eq_getElem hlt) hn ?_
  rw [← (h.mem _ (List.getElem_mem hlt) c hp').2, ← (h.mem _ (List.mem_of_getElem? hn) c hc).2]

theorem groupIx_get {mask : Cls → Mask} {cs : List Cls} {gs : List Group} (h : GroupsOk mask cs gs) {c : Cls} (hc : c ∈ cs) :
    ∃ g, gs[groupIx gs c]? = some g ∧ g.1 = mask c ∧ c ∈ g.2 := by
  obtain ⟨n, g, hn, h1, h2⟩ := h.index hc
  exact ⟨g, by rw [groupIx_eq h hn h2]; exact hn, h1, h2⟩

theorem groupsOf_ok (pl : Platform) (L : Lattice) (os : List Ovr) (dim : Nat) (vp : Cls) :
    GroupsOk (maskOf L os dim) (pl.iter vp (L.td vp)) (groupsOf pl L os dim vp) := groups_ok _ _

theorem groupsOf_mem (pl : Platform) (L : Lattice) {os : List Ovr} {dim : Nat} {vp : Cls} {g : Group}
    (hg : g ∈ groupsOf pl L os dim vp) {c : Cls} (hc : c ∈ g.2) : c ∈ L.td vp :=
  (pl.iter_perm _ _).mem_iff.1 ((groupsOf_ok pl L os dim vp).mem g hg c hc).1

theorem groupsOf_get (pl : Platform) (L : Lattice) (os : List Ovr) (dim : Nat) {vp c : Cls} (hc : c ∈ L.td vp) :
    ∃ g, (groupsOf pl L os dim vp)[groupIx (groupsOf pl L os dim vp) c]? = some g ∧ g.1 = maskOf L os dim c ∧ c ∈ g.2 :=
  groupIx_get (groupsOf_ok pl L os dim vp) ((pl.iter_perm _ _).mem_iff.2 hc)

/-- Groups of the parameters `vp`, the first one being number `n`. -/
def groupsFrom (pl : Platform) (L : Lattice) (os : List Ovr) (n : Nat) (vp : List Cls) : List (List Group) :=
  (vp.zipIdx n).map fun vk => groupsOf pl L os vk.2 vk.1

theorem groupsFrom_cons (pl : Platform) (L : Lattice) (os : List Ovr) (n : Nat) (v : Cls) (vs : List Cls) :
    groupsFrom pl L os n (v :: vs) = groupsOf pl L os n v :: groupsFrom pl L os (n + 1) vs := by
  simp [groupsFrom, List.zipIdx_cons]

/-- Group indices of the arguments. -/
def ixsFrom (pl : Platform) (L : Lattice) (os : List Ovr) : Nat → List Cls → List Cls → List Nat
  | n, v :: vs, a :: as => groupIx (groupsOf pl L os n v) a :: ixsFrom pl L os (n + 1) vs as
  | _, _, _ => []

/-- Masks of the arguments. -/
def masksFrom (L : Lattice) (os : List Ovr) : Nat → List Cls → List Mask
  | n, a :: as => maskOf L os n a :: masksFrom L os (n + 1) as
  | _, [] => []

/-- The overriders that accept all arguments. -/
def argMask (L : Lattice) (os : List Ovr) (args : List Cls) : Mask :=
  (masksFrom L os 0 args).foldl maskAnd (List.replicate os.length true)

theorem maskOf_get (L : Lattice) (os : List Ovr) (dim : Nat) (c : Cls) (i : Nat) :
    (maskOf L os dim c)[i]? = some true ↔ ∃ o v, os[i]? = some o ∧ o.vp[dim]? = some v ∧ c ∈ L.td v := by
  unfold maskOf
  rw [List.getElem?_map]
  cases os[i]? with
  | none => simp
  | some o =>
    simp only [Option.map_some, Option.some.injEq]
    cases h : o.vp[dim]? with
    | none => simp [h]
    | some v => simp [h]

theorem masksFrom_all (L : Lattice) (os : List Ovr) (n : Nat) (args : List Cls) (i : Nat) (o : Ovr) (ho : os[i]? = some o)
    (hlen : o.vp.length = n + args.length) :
    (∀ m ∈ masksFrom L os n args, m[i]? = some true) ↔ List.Forall₂ (fun v a => a ∈ L.td v) (o.vp.drop n) args := by
  induction args generalizing n with
  | nil =>
    rw [List.drop_of_length_le (by simp at hlen; omega)]
    simp [masksFrom]
  | cons a args ih =>
    have hlt : n < o.vp.length := by rw [hlen]; simp
    rw [List.drop_eq_getElem_cons hlt, List.forall₂_cons, ← ih (n + 1) (by rw [hlen]; simp; omega)]
    simp only [masksFrom, List.mem_cons, forall_eq_or_imp, maskOf_get]
    constructor
    · rintro ⟨⟨o', v, ho', hv, ha⟩, h⟩
      obtain rfl := Option.some.inj (ho.symm.trans ho')
      rw [List.getElem?_eq_getElem hlt] at hv
      obtain rfl := Option.some.inj hv
      exact ⟨ha, h⟩
    · rintro ⟨ha, h⟩
      exact ⟨⟨o, _, ho, List.getElem?_eq_getElem hlt, ha⟩, h⟩

/-- A bit of the mask of the arguments is set exactly for the overriders that accept them. -/
theorem argMask_get (L : Lattice) (os : List Ovr) (args : List Cls) (hlen : ∀ o ∈ os, o.vp.length = args.length) (i : Nat) :
    (argMask L os args)[i]? = some true ↔ ∃ o, os[i]? = some o ∧ List.Forall₂ (fun v a => a ∈ L.td v) o.vp args := by
  unfold argMask
  rw [foldl_maskAnd_get]
  have h1 : (List.replicate os.length true)[i]? = some true ↔ ∃ o, os[i]? = some o := by
    rw [List.getElem?_replicate]
    constructor
    · intro h
      split at h
      · rename_i hi; exact ⟨_, List.getElem?_eq_getElem hi⟩
      · simp at h
    · rintro ⟨o, ho⟩
      rw [if_pos (List.getElem?_eq_some_iff.1 ho).1]
  rw [h1]
  constructor
  · rintro ⟨⟨o, ho⟩, h⟩
    refine ⟨o, ho, ?_⟩
    have := (masksFrom_all L os 0 args i o ho (by rw [hlen o (List.mem_of_getElem? ho)]; simp)).1 h
    simpa using this
  · rintro ⟨o, ho, h⟩
    refine ⟨⟨o, ho⟩, ?_⟩
    exact (masksFrom_all L os 0 args i o ho (by rw [hlen o (List.mem_of_getElem? ho)]; simp)).2 (by simpa using h)

theorem mem_setBits_argMask (L : Lattice) (os : List Ovr) (args : List Cls) (hlen : ∀ o ∈ os, o.vp.length = args.length)
    (i : Nat) :
    i ∈ setBits (argMask L os args) ↔ ∃ o, os[i]? = some o ∧ List.Forall₂ (fun v a => a ∈ L.td v) o.vp args := by
  rw [mem_setBits, argMask_get L os args hlen]

/-- Dimensions, indices and masks put together. -/
theorem dims_forall (pl : Platform) (L : Lattice) (os : List Ovr) (n : Nat) (vs as : List Cls)
    (h : List.Forall₂ (fun v a => a ∈ L.td v) vs as) :
    List.Forall₂ (fun d g => g < d.length) ((groupsFrom pl L os n vs).map fun gs => gs.map (·.1)) (ixsFrom pl L os n vs as) ∧
    List.Forall₂ (fun (dg : List Mask × Nat) m => dg.1[dg.2]? = some m)
      (((groupsFrom pl L os n vs).map fun gs => gs.map (·.1)).zip (ixsFrom pl L os n vs as)) (masksFrom L os n as) := by
  induction h generalizing n with
  | nil => exact ⟨.nil, .nil⟩
  | @cons v a vs as hva _ ih =>
    obtain ⟨h1, h2⟩ := ih (n + 1)
    obtain ⟨g, hg, hgm, _⟩ := groupsOf_get pl L os n hva
    rw [groupsFrom_cons, ixsFrom, masksFrom, List.map_cons, List.zip_cons_cons]
    refine ⟨.cons ?_ h1, .cons ?_ h2⟩
    · rw [List.length_map]; exact (List.getElem?_eq_some_iff.1 hg).1
    · dsimp only
      rw [List.getElem?_map, hg, Option.map_some, hgm]

/-- Conversely, group indices are the indices of some arguments. -/
theorem exists_args (pl : Platform) (L : Lattice) (os : List Ovr) (n : Nat) (vs : List Cls) (ixs : List Nat)
    (h : List.Forall₂ (fun d g => g < d.length) ((groupsFrom pl L os n vs).map fun gs => gs.map (·.1)) ixs) :
    ∃ as, List.Forall₂ (fun v a => a ∈ L.td v) vs as ∧ ixsFrom pl L os n vs as = ixs := by
  induction vs generalizing n ixs with
  | nil =>
    simp [groupsFrom] at h
    exact ⟨[], .nil, by simp [ixsFrom, h]⟩
  | cons v vs ih =>
    rw [groupsFrom_cons, List.map_cons] at h
    cases h with
    | @cons _ g _ ixs hg h =>
      obtain ⟨as, h1, h2⟩ := ih (n + 1) ixs h
      rw [List.length_map] at hg
      have hget := List.getElem?_eq_getElem hg
      obtain ⟨a, ha⟩ := List.exists_mem_of_ne_nil _ ((groupsOf_ok pl L os n v).nonempty _ (List.getElem_mem hg))
      refine ⟨a :: as, .cons ?_ h1, ?_⟩
      · exact groupsOf_mem pl L (List.getElem_mem hg) ha
      · rw [ixsFrom, h2, groupIx_eq (groupsOf_ok pl L os n v) hget ha]

theorem zip_reverse_eq {α β : Type} (l : List α) (l' : List β) (h : l.length = l'.length) :
    l.reverse.zip l'.reverse = (l.zip l').reverse := by
  induction l generalizing l' with
  | nil => simp
  | cons a l ih =>
    cases l' with
    | nil => simp at h
    | cons b l' =>
      simp only [List.reverse_cons, List.zip_cons_cons]
      rw [List.zip_append (by simpa using h), ih l' (by simpa using h)]
      simp

theorem foldl_maskAnd_reverse (ms : List Mask) (cand : Mask) (n : Nat) (hc : cand.length = n) (h : ∀ m ∈ ms, m.length = n) :
    ms.reverse.foldl maskAnd cand = ms.foldl maskAnd cand := by
  apply mask_ext
  · rw [foldl_maskAnd_length _ _ n hc (by simpa using h), foldl_maskAnd_length _ _ n hc h]
  · intro i
    rw [foldl_maskAnd_get, foldl_maskAnd_get]
    simp

theorem masksFrom_length (L : Lattice) (os : List Ovr) (n : Nat) (as : List Cls) : ∀ m ∈ masksFrom L os n as, m.length = os.length := by
  induction as generalizing n with
  | nil => simp [masksFrom]
  | cons a as ih =>
    intro m hm
    rw [masksFrom] at hm
    rcases List.mem_cons.1 hm with rfl | hm
    · simp [maskOf]
    · exact ih (n + 1) m hm

theorem methGroups_eq (pl : Platform) (L : Lattice) (m : Meth) : methGroups pl L m = groupsFrom pl L m.overriders 0 m.vp := rfl

/-- Position in the dispatch table of the cell for the arguments. -/
def argOffset (pl : Platform) (L : Lattice) (m : Meth) (args : List Cls) : Nat :=
  offsetOf 1 ((methGroups pl L m).map List.length) (ixsFrom pl L m.overriders 0 m.vp args)

/-- The classes of the arguments are accepted by the method. -/
abbrev ArgsOk (L : Lattice) (m : Meth) (args : List Cls) : Prop := List.Forall₂ (fun v a => a ∈ L.td v) m.vp args

/-- The masks of the cells, in order. -/
def methMasks (pl : Platform) (L : Lattice) (m : Meth) : List Mask :=
  cellMasks ((methGroups pl L m).map fun gs => gs.map (·.1)).reverse (List.replicate m.overriders.length true)

theorem methMasks_length (pl : Platform) (L : Lattice) (m : Meth) :
    (methMasks pl L m).length = ((methGroups pl L m).map List.length).prod := by
  unfold methMasks
  rw [cellMasks_length, cellCount, List.map_reverse, List.prod_reverse, List.map_map]
  simp [Function.comp_def]

theorem methMasks_get (pl : Platform) (L : Lattice) (m : Meth) (args : List Cls) (h : ArgsOk L m args) :
    (methMasks pl L m)[argOffset pl L m args]? = some (argMask L m.overriders args) := by
  obtain ⟨h1, h2⟩ := dims_forall pl L m.overriders 0 m.vp args h
  rw [← methGroups_eq] at h1 h2
  have hl := h1.length_eq
  have hr : List.Forall₂ (fun d g => g < d.length)
      ((methGroups pl L m).map fun gs => gs.map (·.1)).reverse (ixsFrom pl L m.overriders 0 m.vp args).reverse := by
    rw [List.forall₂_reverse_iff]; exact h1
  have hm : List.Forall₂ (fun (dg : List Mask × Nat) m => dg.1[dg.2]? = some m)
      (((methGroups pl L m).map fun gs => gs.map (·.1)).reverse.zip (ixsFrom pl L m.overriders 0 m.vp args).reverse)
      (masksFrom L m.overriders 0 args).reverse := by
    rw [zip_reverse_eq _ _ hl, List.forall₂_reverse_iff]; exact h2
  have := cellMasks_get _ _ _ (List.replicate m.overriders.length true) hr hm
  rw [cellIndex_reverse _ _ hl, foldl_maskAnd_reverse _ _ m.overriders.length (by simp) (masksFrom_length _ _ _ _)] at this
  rw [List.map_map] at this
  have e : List.map (List.length ∘ fun (gs : List Group) => gs.map (·.1)) (methGroups pl L m) = (methGroups pl L m).map List.length := by
    simp [Function.comp_def]
  rw [e] at this
  exact this

/-- Every cell is the cell for some arguments. -/
theorem methMasks_args (pl : Platform) (L : Lattice) (m : Meth) (j : Nat) (hj : j < (methMasks pl L m).length) :
    ∃ args, ArgsOk L m args ∧ argOffset pl L m args = j := by
  unfold methMasks at hj
  rw [cellMasks_length] at hj
  obtain ⟨gs, h1, h2⟩ := exists_cellIndex _ j hj
  have h1' : List.Forall₂ (fun d g => g < d.length) ((methGroups pl L m).map fun gs => gs.map (·.1)) gs.reverse := by
    rw [← List.forall₂_reverse_iff, List.reverse_reverse]; exact h1
  obtain ⟨args, h3, h4⟩ := exists_args pl L m.overriders 0 m.vp gs.reverse h1'
  refine ⟨args, h3, ?_⟩
  unfold argOffset
  rw [h4, ← h2]
  have := cellIndex_reverse ((methGroups pl L m).map fun gs => gs.map (·.1)) gs.reverse h1'.length_eq
  rw [List.reverse_reverse] at this
  rw [this, List.map_map]
  simp [Function.comp_def]

/-! ## Strides -/

theorem stridesFrom_length (s n : Nat) (ns : List Nat) : (stridesFrom s (n :: ns)).length = ns.length := by
  induction ns generalizing s n with
  | nil => rfl
  | cons n' ns ih => simp [stridesFrom, ih]

/-- The displacements added by a call are the terms of the position. -/
theorem offsetOf_strides (s n : Nat) (ns : List Nat) (g : Nat) (gs : List Nat) (hl : ns.length = gs.length) :
    offsetOf s (n :: ns) (g :: gs) = g * s + (List.zipWith (· * ·) gs (stridesFrom s (n :: ns))).sum := by
  induction ns generalizing s n g gs with
  | nil =>
    obtain rfl : gs = [] := List.eq_nil_of_length_eq_zero hl.symm
    simp [offsetOf]
  | cons n' ns ih =>
    cases gs with
    | nil => simp at hl
    | cons g' gs =>
      rw [offsetOf, ih (s * n) n' g' gs (by simpa using hl)]
      simp only [stridesFrom, List.zipWith_cons_cons, List.sum_cons]

/-! ## The table of a method -/

/-- What `build_dispatch_tables` computes for a method. -/
structure TableOk (n : Bool) (pl : Platform) (L : Lattice) (m : Meth) (t : MethTable) (rs : List CellResult) : Prop where
  groups : t.groups = methGroups pl L m
  strides : t.strides = stridesFrom 1 ((methGroups pl L m).map List.length)
  results : List.Forall₂ (fun mask r => ∃ surv left, CellOk n (moreAt L m.overriders) (retAt m.overriders) L.td (setBits mask) r surv left) (methMasks pl L m) rs
  table : t.table = rs.map (·.cell)
  next : t.next = rs.foldl storeNext (fun _ => none)
  cells : t.cells = if m.vp.length > 1 then ((methGroups pl L m).map List.length).prod else 0
  notImplemented : t.notImplemented = rs.countP (fun r => r.cell = .notImplemented)
  ambiguous : t.ambiguous = rs.countP (·.amb)

/-- Some cell of the method is undefined. -/
def MethUb (n : Bool) (L : Lattice) (m : Meth) : Prop :=
  ∃ args, ArgsOk L m args ∧ CellUb n (moreAt L m.overriders) (retAt m.overriders) L.td (setBits (argMask L m.overriders args))

theorem methMasks_mem {pl : Platform} {L : Lattice} {m : Meth} {mask : Mask} (h : mask ∈ methMasks pl L m) :
    ∃ args, ArgsOk L m args ∧ mask = argMask L m.overriders args := by
  obtain ⟨j, hj⟩ := List.getElem?_of_mem h
  obtain ⟨args, ha, he⟩ := methMasks_args pl L m j (List.getElem?_eq_some_iff.1 hj).1
  have := methMasks_get pl L m args ha
  rw [he, hj] at this
  exact ⟨args, ha, Option.some.inj this⟩

theorem buildMethod_ok (n : Bool) (pl : Platform) (L : Lattice) (m : Meth) :
    (buildMethod pl n L m = .ub ∧ MethUb n L m) ∨ ∃ t rs, buildMethod pl n L m = .ok t ∧ TableOk n pl L m t rs := by
  have h := evalCells_ok n (moreAt L m.overriders) (retAt m.overriders) L.td (methMasks pl L m)
  unfold buildMethod
  dsimp only
  rcases h with ⟨h1, mask, hm, h2⟩ | ⟨rs, h1, h2⟩
  · unfold methMasks at h1
    rw [h1]
    obtain ⟨args, ha, rfl⟩ := methMasks_mem hm
    exact .inl ⟨rfl, args, ha, h2⟩
  · unfold methMasks at h1
    rw [h1]
    exact .inr ⟨_, rs, rfl, rfl, rfl, h2, rfl, rfl, rfl, rfl, rfl⟩

theorem TableOk.length {n : Bool} {pl : Platform} {L : Lattice} {m : Meth} {t : MethTable} {rs : List CellResult}
    (h : TableOk n pl L m t rs) : t.table.length = (methMasks pl L m).length := by
  rw [h.table, List.length_map, h.results.length_eq]

/-- The cell for given arguments. -/
theorem TableOk.at {n : Bool} {pl : Platform} {L : Lattice} {m : Meth} {t : MethTable} {rs : List CellResult}
    (h : TableOk n pl L m t rs) {args : List Cls} (ha : ArgsOk L m args) :
    ∃ r surv left, rs[argOffset pl L m args]? = some r ∧ t.table[argOffset pl L m args]? = some r.cell ∧
      CellOk n (moreAt L m.overriders) (retAt m.overriders) L.td (setBits (argMask L m.overriders args)) r surv left := by
  have hm := methMasks_get pl L m args ha
  have hlt := (List.getElem?_eq_some_iff.1 hm).1
  obtain ⟨hlen, hR⟩ := List.forall₂_iff_get.1 h.results
  have hlt' : argOffset pl L m args < rs.length := hlen ▸ hlt
  obtain ⟨surv, left, hs⟩ := hR _ hlt hlt'
  refine ⟨rs[argOffset pl L m args], surv, left, List.getElem?_eq_getElem hlt', ?_, ?_⟩
  · rw [h.table, List.getElem?_map, List.getElem?_eq_getElem hlt']; rfl
  · have : (methMasks pl L m)[argOffset pl L m args] = argMask L m.overriders args := by
      rw [List.getElem?_eq_getElem hlt] at hm; exact Option.some.inj hm
    simpa [this] using hs

/-- Every result is the result for some arguments. -/
theorem TableOk.mem {n : Bool} {pl : Platform} {L : Lattice} {m : Meth} {t : MethTable} {rs : List CellResult}
    (h : TableOk n pl L m t rs) {r : CellResult} (hr : r ∈ rs) :
    ∃ args surv left, ArgsOk L m args ∧ rs[argOffset pl L m args]? = some r ∧
      CellOk n (moreAt L m.overriders) (retAt m.overriders) L.td (setBits (argMask L m.overriders args)) r surv left := by
  obtain ⟨j, hj⟩ := List.getElem?_of_mem hr
  have hlt := (List.getElem?_eq_some_iff.1 hj).1
  obtain ⟨args, ha, he⟩ := methMasks_args pl L m j (by rw [h.results.length_eq]; exact hlt)
  obtain ⟨r', surv, left, h1, _, h3⟩ := h.at ha
  rw [he, hj] at h1
  obtain rfl := Option.some.inj h1
  exact ⟨args, surv, left, ha, by rw [he]; exact hj, h3⟩

/-- What calls need to know of the table of a method, whatever its cells. -/
structure TableBase (pl : Platform) (L : Lattice) (m : Meth) (t : MethTable) : Prop where
  strides : t.strides = stridesFrom 1 ((methGroups pl L m).map List.length)
  length : t.table.length = (methMasks pl L m).length
  /-- cells designate existing overriders -/
  range : ∀ o, Cell.ovr o ∈ t.table → o < m.overriders.length

theorem argMask_length (L : Lattice) (os : List Ovr) (args : List Cls) : (argMask L os args).length = os.length := by
  unfold argMask
  rw [foldl_maskAnd_length]
  · simp
  · intro m hm
    simp [masksFrom_length L os 0 args m hm]

theorem setBits_lt {L : Lattice} {os : List Ovr} {args : List Cls} {o : Nat} (h : o ∈ setBits (argMask L os args)) : o < os.length := by
  have := (List.getElem?_eq_some_iff.1 (mem_setBits.1 h)).1
  rwa [argMask_length] at this

theorem TableOk.base {n : Bool} {pl : Platform} {L : Lattice} {m : Meth} {t : MethTable} {rs : List CellResult}
    (h : TableOk n pl L m t rs) : TableBase pl L m t := by
  refine ⟨h.strides, h.length, fun o ho => ?_⟩
  rw [h.table] at ho
  obtain ⟨r, hr, hrc⟩ := List.mem_map.1 ho
  obtain ⟨args, surv, left, _, _, hC⟩ := h.mem hr
  have hs : left.getLast? = some o := cellFor_ovr (hC.cell ▸ hrc)
  exact setBits_lt (hC.isSurv.sub.subset ((remainL_sublist hC.isLeft).subset (List.mem_of_getLast? hs)))

theorem buildMethods_ok (n : Bool) (pl : Platform) (L : Lattice) (ms : List Meth) :
    (buildMethods pl n L ms = .ub ∧ ∃ m ∈ ms, MethUb n L m) ∨
    ∃ ts, buildMethods pl n L ms = .ok ts ∧ List.Forall₂ (fun m t => ∃ rs, TableOk n pl L m t rs) ms ts := by
  induction ms with
  | nil => exact .inr ⟨[], rfl, .nil⟩
  | cons m ms ih =>
    rcases buildMethod_ok n pl L m with ⟨h3, h4⟩ | ⟨t, rs, h3, h4⟩
    · exact .inl ⟨by simp [buildMethods, h3], m, by simp, h4⟩
    · rcases ih with ⟨h1, m', hm, h2⟩ | ⟨ts, h1, h2⟩
      · exact .inl ⟨by simp [buildMethods, h1, h3], m', by simp [hm], h2⟩
      · exact .inr ⟨t :: ts, by simp [buildMethods, h1, h3], .cons ⟨rs, h4⟩ h2⟩

/-! ## `next` -/

/-- The value of `next` is the one stored by the last cell that holds the overrider. -/
theorem foldl_storeNext (rs : List CellResult) (init : Nat → Option Cell) (o : Nat) :
    (rs.foldl storeNext init) o = init o ∧ (∀ r ∈ rs, r.cell = .ovr o → r.next = none) ∨
    ∃ r ∈ rs, r.cell = .ovr o ∧ ∃ c, r.next = some c ∧ (rs.foldl storeNext init) o = some c := by
  refine foldl_inv_prefix (fun pre next => next o = init o ∧ (∀ r ∈ pre, r.cell = .ovr o → r.next = none) ∨
    ∃ r ∈ pre, r.cell = .ovr o ∧ ∃ c, r.next = some c ∧ next o = some c) storeNext rs init (.inl ⟨rfl, by simp⟩) ?_
  intro pre r post next _ h
  unfold storeNext
  cases hc : r.cell with
  | ovr o' =>
    cases hn : r.next with
    | none =>
      dsimp only
      rcases h with ⟨h1, h2⟩ | ⟨r', h1, h2⟩
      · refine .inl ⟨h1, ?_⟩
        intro x hx hxc
        rcases List.mem_append.1 hx with hx | hx
        · exact h2 x hx hxc
        · simp at hx; subst hx; exact hn
      · exact .inr ⟨r', List.mem_append_left _ h1, h2⟩
    | some c =>
      dsimp only
      by_cases he : o' = o
      · subst he
        exact .inr ⟨r, by simp, hc, c, hn, by simp⟩
      · rw [Function.update_of_ne (Ne.symm he)]
        rcases h with ⟨h1, h2⟩ | ⟨r', h1, h2⟩
        · refine .inl ⟨h1, ?_⟩
          intro x hx hxc
          rcases List.mem_append.1 hx with hx | hx
          · exact h2 x hx hxc
          · simp at hx; subst hx; rw [hc] at hxc; simp at hxc; exact absurd hxc he
        · exact .inr ⟨r', List.mem_append_left _ h1, h2⟩
  | notImplemented =>
    dsimp only
    rcases h with ⟨h1, h2⟩ | ⟨r', h1, h2⟩
    · refine .inl ⟨h1, ?_⟩
      intro x hx hxc
      rcases List.mem_append.1 hx with hx | hx
      · exact h2 x hx hxc
      · simp at hx; subst hx; rw [hc] at hxc; simp at hxc
    · exact .inr ⟨r', List.mem_append_left _ h1, h2⟩
  | ambiguous =>
    dsimp only
    rcases h with ⟨h1, h2⟩ | ⟨r', h1, h2⟩
    · refine .inl ⟨h1, ?_⟩
      intro x hx hxc
      rcases List.mem_append.1 hx with hx | hx
      · exact h2 x hx hxc
      · simp at hx; subst hx; rw [hc] at hxc; simp at hxc
    · exact .inr ⟨r', List.mem_append_left _ h1, h2⟩

/-- `next` of an overrider: nothing if no cell holds it, otherwise what one of its cells computed. -/
theorem TableOk.next_spec {n : Bool} {pl : Platform} {L : Lattice} {m : Meth} {t : MethTable} {rs : List CellResult}
    (h : TableOk n pl L m t rs) (o : Nat) :
    (t.next o = none ∧ ∀ r ∈ rs, r.cell ≠ .ovr o) ∨
    ∃ args r surv left surv' left', ArgsOk L m args ∧ t.table[argOffset pl L m args]? = some (.ovr o) ∧ r.cell = .ovr o ∧
      CellOk n (moreAt L m.overriders) (retAt m.overriders) L.td (setBits (argMask L m.overriders args)) r surv left ∧
      Surv (moreAt L m.overriders) ((setBits (argMask L m.overriders args)).filter (· ∉ left)) surv' ∧
      remainL n (retAt m.overriders) (derOf L.td) surv' = .ok left' ∧ t.next o = some (cellFor n left') := by
  rw [h.next]
  rcases foldl_storeNext rs (fun _ => none) o with ⟨h1, h2⟩ | ⟨r, hr, hc, c, hn, he⟩
  · refine .inl ⟨h1, fun r hr hc => ?_⟩
    have := h2 r hr hc
    obtain ⟨args, surv, left, _, _, h3⟩ := h.mem hr
    obtain ⟨s, l, _, _, hs⟩ := h3.next o hc
    rw [this] at hs; simp at hs
  · obtain ⟨args, surv, left, ha, hg, h3⟩ := h.mem hr
    obtain ⟨s, l, hs1, hl, hs2⟩ := h3.next o hc
    refine .inr ⟨args, r, surv, left, s, l, ha, ?_, hc, h3, hs1, hl, by rw [he, ← hn, hs2]⟩
    rw [h.table, List.getElem?_map, hg, Option.map_some, hc]

end OpenMethod
