import Verif.Proof.TraceNames

/-!
# Lemmas about tracing: the trace of `initialize`
-/

namespace OpenMethod

open T Spec

variable {o : Option Bool} {l : Nat}

theorem plain_true : Plain fun _ => True := ⟨fun _ => trivial, fun _ => trivial, fun _ => trivial, fun _ _ => trivial, fun _ => trivial, trivial⟩

theorem plain_registered (p : Program) : Plain (RegisteredName p) := ⟨fun _ => trivial, fun _ => trivial, fun _ => trivial, fun _ _ => trivial, fun _ => trivial, trivial⟩

theorem T.Snd.nil {α : Type} {G : Tok → Prop} {x : T α} (h : Snd G o l x) (ho : o ≠ some true) : x.out o l = [] := by
  rw [List.eq_nil_iff_forall_not_mem]
  exact fun t ht => ho (h t ht).1

theorem snd_compileT_any (pl : Platform) (n : Bool) (p : Program) : Snd (fun _ => True) o l (compileT pl n p) := by
  unfold compileT
  refine .bind (snd_augmentClassesT plain_true (fun _ _ => ⟨trivial, fun _ _ => trivial⟩) fun _ _ _ _ _ => trivial) fun L _ => ?_
  refine .bind (snd_augmentT plain_true _ _ fun _ _ => ⟨trivial, fun _ _ => trivial, fun _ _ => trivial⟩) fun ms _ => ?_
  have hL : ClassNames (fun _ => True) L := fun _ _ _ => trivial
  have hM : MethodNames (fun _ => True) ms := fun _ _ => ⟨trivial, fun _ _ => trivial⟩
  refine .bind (snd_assignSlotsT plain_true hL hM) fun s _ => .bind (snd_buildMethodsT plain_true n hL _ _ fun _ _ => ⟨trivial, fun _ _ => trivial⟩) fun _ _ => .pure _

theorem classNames {p : Program} {L : Lattice} (hL : LatticeOk p L) : ClassNames (RegisteredName p) L := by
  intro c t h
  obtain ⟨⟨cr, hcr, rfl⟩, _⟩ := (hL.mem_typeIds c t).1 (List.mem_of_getElem? h)
  exact .inl ⟨cr, hcr, .inl rfl⟩

theorem methodNames (p : Program) (L : Lattice) : MethodNames (RegisteredName p) (p.methods.map (toMeth p.rtti L)) := by
  intro m hm
  obtain ⟨mi, hmi, rfl⟩ := List.mem_map.1 hm
  refine ⟨⟨mi, hmi, rfl⟩, fun ov hov => ?_⟩
  obtain ⟨oi, hoi, rfl⟩ := List.mem_map.1 hov
  exact ⟨mi, hmi, oi, hoi, rfl⟩

theorem snd_compileT {pl : Platform} {n : Bool} {p : Program} (hac : Acyclic p) : Snd (RegisteredName p) o l (compileT pl n p) := by
  have P := plain_registered p
  unfold compileT
  refine .bind (snd_augmentClassesT P (fun cr hcr => ⟨.inl ⟨cr, hcr, .inl rfl⟩, fun t ht => .inl ⟨cr, hcr, .inr ht⟩⟩) fun L h => classNames (augmentClasses_ok hac h)) fun L h => ?_
  rw [res_augmentClassesT hac] at h
  have hL := classNames (augmentClasses_ok hac h)
  refine .bind (snd_augmentT P _ _ fun m hm => ⟨⟨m, hm, rfl⟩, fun t ht => .inr ⟨m, hm, ht⟩, fun ov hov => ⟨m, hm, ov, hov, rfl⟩⟩) fun ms h' => ?_
  rw [res_augmentT] at h'
  obtain ⟨rfl, _⟩ := augment_ok.1 h'
  have hM := methodNames p L
  refine .bind (snd_assignSlotsT P hL hM) fun s _ => .bind (snd_buildMethodsT P n hL _ _ fun mi hmi => ?_) fun _ _ => .pure _
  exact hM mi.1 (by rw [(List.mem_zipIdx' hmi).2]; exact List.getElem_mem _)

theorem snd_searchPassesT {G : Tok → Prop} (P : Plain G) (rnd : Nat → BitVec 64) (ids : List TypeId) (passes M : Nat) (s : Search) : Snd G o l (searchPassesT rnd ids passes M s) := by
  induction passes generalizing M s with
  | zero => exact .pure _
  | succ passes ih =>
    unfold searchPassesT
    snd P []
    exact ih _ _

/-- The trace of the vptr policy, for any option. -/
theorem out_vptrInitT (cfg : Config) (rnd : Nat → BitVec 64) (mem : VarId → Option Ptr) (cs : List CtxClass) (s : VptrState) :
    ∃ w, (vptrInitT cfg rnd mem cs s).out o l =
        (if cfg.vector ∧ cfg.typeHash ∧ o.isSome then [.str "Finding hash factor for ", .num cs.length, .str " types\n"] else []) ++ w ∧
      (o ≠ some true → w = []) ∧ ∀ G, Plain G → ∀ t ∈ w, G t := by
  unfold vptrInitT
  by_cases hv : cfg.vector = true
  · by_cases ht : cfg.typeHash = true
    · simp only [hv, ht, if_true, true_and]
      unfold hashInitT
      have hs : ∀ G, Plain G → Snd G o l (searchPassesT rnd (cs.flatMap (·.ids)) 4 (initialM cs.length) { state := bucketsBefore cfg s.hash, total := 0, drawn := 0 }) :=
        fun G P => snd_searchPassesT P _ _ _ _ _
      refine ⟨(searchPassesT rnd (cs.flatMap (·.ids)) 4 (initialM cs.length) { state := bucketsBefore cfg s.hash, total := 0, drawn := 0 }).out o l, ?_, ?_, ?_⟩
      · rw [out_bind, out_bind_ok (res_direct _)]
        have : (direct [.str "Finding hash factor for ", .num cs.length, .str " types\n"]).out o l =
            if o.isSome = true then [.str "Finding hash factor for ", .num cs.length, .str " types\n"] else [] := rfl
        rw [this]
        cases ((direct [.str "Finding hash factor for ", .num cs.length, .str " types\n"] >>= fun _ =>
          searchPassesT rnd (cs.flatMap (·.ids)) 4 (initialM cs.length) { state := bucketsBefore cfg s.hash, total := 0, drawn := 0 }) : T HashResult).res o l <;> simp
      · exact fun ho => (hs _ plain_true).nil ho
      · exact fun G P t h => (hs G P t h).2
    · exact ⟨[], by simp [hv, ht], fun _ => rfl, by simp⟩
  · exact ⟨[], by simp [hv], fun _ => rfl, by simp⟩

/-- The trace of `initialize` begins with that of `compile`. -/
theorem initRegistryT_prefix (E : Env) (p : Program) (s : RegState) : (compileT E.platform E.n2216 p).out o 0 <+: (initRegistryT E p s o).1 := by
  unfold initRegistryT T.out
  rcases compileT E.platform E.n2216 p o 0 with ⟨w, c | e | _⟩
  · dsimp only
    rcases writeGlobalT c s.fresh o 0 with ⟨w', img | e | _⟩
    · dsimp only
      rcases vptrInitT E.cfg E.rnd (applyImage c.lattice img s).svptr (ctxClasses c.lattice) (applyImage c.lattice img s).vptr o 0 with ⟨w'', v | e | _⟩
      · dsimp only
        cases v.error <;> simp
      · simp
      · simp
    · simp
    · simp
  · simp
  · simp

theorem initRegistryT_err {E : Env} {p : Program} {s : RegState} {e : Err} (h : (compileT E.platform E.n2216 p).res o 0 = .err e) :
    (initRegistryT E p s o).1 = (compileT E.platform E.n2216 p).out o 0 := by
  unfold initRegistryT T.out
  unfold T.res at h
  rcases hc : compileT E.platform E.n2216 p o 0 with ⟨w, c | e | _⟩
  · rw [hc] at h; cases h
  · rfl
  · rfl

/-- The parts of the trace of `initialize`. -/
theorem initRegistryT_parts {E : Env} {p : Program} {s : RegState} (hac : Acyclic p) (hwf : ∀ m ∈ p.methods, m.WF) {c : Compiled} (hc : compile E.platform E.n2216 p = .ok c) :
    ∃ img w, writeGlobal c s.fresh = .ok img ∧
      (initRegistryT E p s o).1 = (compileT E.platform E.n2216 p).out o 0 ++ (writeGlobalT c s.fresh).out o 0 ++
        (vptrInitT E.cfg E.rnd (applyImage c.lattice img s).svptr (ctxClasses c.lattice) (applyImage c.lattice img s).vptr).out o 0 ++ w ∧
      (w = [] ∨ w = (if o = some true then summary c.report else [])) ∧ (∀ s' rep, Initializes E p s s' rep → w = (if o = some true then summary rep else [])) := by
  have C := compile_ok hac hwf hc
  obtain ⟨_, img, hw, _⟩ := writeGlobal_ok C s.fresh
  have h1 : (compileT E.platform E.n2216 p o 0).2 = .ok c := (res_compileT hac hwf).trans hc
  have h2 : (writeGlobalT c s.fresh o 0).2 = .ok img := (res_writeGlobalT C s.fresh).trans hw
  have h3 : (vptrInitT E.cfg E.rnd (applyImage c.lattice img s).svptr (ctxClasses c.lattice) (applyImage c.lattice img s).vptr o 0).2 =
    vptrInit E.cfg E.rnd (applyImage c.lattice img s).svptr (ctxClasses c.lattice) (applyImage c.lattice img s).vptr := res_vptrInitT _ _ _ _ _
  have hprint : ((do
      printT c.report.cells c.report.notImplemented c.report.ambiguous
      line [.str "Finished\n"] : T Unit) o 0).1 = if o = some true then summary c.report else [] := by
    show T.out _ o 0 = _
    rw [out_bind_ok (res_printT _ _ _)]
    unfold printT
    rw [out_bind_ok res_start]
    by_cases h0 : c.report.cells = 0
    · by_cases ho : o = some true <;> simp [h0, ho, summary]
    · by_cases ho : o = some true <;> simp [h0, ho, summary, out_bind_ok]
  unfold initRegistryT T.out
  unfold Initializes initRegistry
  simp only [hc, hw]
  rcases hC : compileT E.platform E.n2216 p o 0 with ⟨w, r⟩
  rw [hC] at h1
  dsimp only at h1
  subst h1
  dsimp only
  rcases hG : writeGlobalT c s.fresh o 0 with ⟨w', r⟩
  rw [hG] at h2
  dsimp only at h2
  subst h2
  dsimp only
  rw [← h3]
  refine ⟨img, ?_⟩
  rcases vptrInitT E.cfg E.rnd (applyImage c.lattice img s).svptr (ctxClasses c.lattice) (applyImage c.lattice img s).vptr o 0 with ⟨w'', v | e | _⟩
  · dsimp only
    cases v.error with
    | none =>
      dsimp only
      rw [hprint]
      refine ⟨_, rfl, rfl, .inr rfl, ?_⟩
      intro s' rep h
      simp only [Res.ok.injEq, InitOut.mk.injEq, Except.ok.injEq] at h
      rw [h.2]
    | some e => exact ⟨[], rfl, by simp, .inl rfl, fun s' rep h => by simp at h⟩
  · exact ⟨[], rfl, by simp, .inl rfl, fun s' rep h => by simp at h⟩
  · exact ⟨[], rfl, by simp, .inl rfl, fun s' rep h => by simp at h⟩

theorem classCount_eq {p : Program} {L : Lattice} (hL : LatticeOk p L) : (ctxClasses L).length = classCount p := by
  unfold ctxClasses classCount
  rw [List.length_map]
  apply List.Perm.length_eq
  rw [List.perm_ext_iff_of_nodup hL.nodup_order (List.nodup_dedup _)]
  intro c
  rw [hL.mem_order, List.mem_dedup, List.mem_map]
  rfl

/-- What `initialize` writes when there is no trace, or when it is off. -/
theorem initRegistryT_off {E : Env} {p : Program} (s : RegState) (hac : Acyclic p) (hwf : ∀ m ∈ p.methods, m.WF) (ho : o ≠ some true) :
    ((∃ c, compile E.platform E.n2216 p = .ok c) ∧ (initRegistryT E p s o).1 = if E.cfg.vector ∧ E.cfg.typeHash ∧ o.isSome then hashLine p else []) ∨
    ((∀ c, compile E.platform E.n2216 p ≠ .ok c) ∧ (initRegistryT E p s o).1 = []) := by
  have hq := (snd_compileT_any (o := o) (l := 0) E.platform E.n2216 p).nil ho
  cases hc : compile E.platform E.n2216 p with
  | ok c =>
    left
    refine ⟨⟨c, rfl⟩, ?_⟩
    obtain ⟨img, w, _, h1, h2, _⟩ := initRegistryT_parts (o := o) (s := s) hac hwf hc
    have hg : (writeGlobalT c s.fresh).out o 0 = [] := (snd_writeGlobalT (o := o) (l := 0) plain_true (fun _ _ _ => trivial) (fun _ _ => ⟨trivial, fun _ _ => trivial⟩) s.fresh).nil ho
    have hw : w = [] := by
      rcases h2 with h2 | h2
      · exact h2
      · rw [if_neg ho] at h2
        exact h2
    obtain ⟨w', h3, h4, _⟩ := out_vptrInitT (o := o) (l := 0) E.cfg E.rnd (applyImage c.lattice img s).svptr (ctxClasses c.lattice) (applyImage c.lattice img s).vptr
    rw [h1, hq, hg, h3, h4 ho, hw, classCount_eq (compile_ok hac hwf hc).lat]
    simp [hashLine]
  | err e =>
    right
    refine ⟨fun c h => (by cases h), ?_⟩
    rw [initRegistryT_err (o := o) ((res_compileT hac hwf).trans hc), hq]
  | ub =>
    right
    refine ⟨fun c h => (by cases h), ?_⟩
    have hub : (compileT E.platform E.n2216 p o 0).2 = .ub := (res_compileT hac hwf).trans hc
    have hq' : (compileT E.platform E.n2216 p o 0).1 = [] := hq
    unfold initRegistryT
    rcases hC : compileT E.platform E.n2216 p o 0 with ⟨w, r⟩
    rw [hC] at hub hq'
    dsimp only at hub hq'
    subst hub
    exact hq'

end OpenMethod
