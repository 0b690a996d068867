import Verif.SpecBare
import Verif.Proof.VirtualPtr
import Verif.Proof.History

/-! # Registries without a vptr policy: lemmas -/

namespace OpenMethod

variable {B : BareEnv} {p : Program} {s s' t t' : RegState} {rep : Report}

theorem SameButVptr.refl (s : RegState) : SameButVptr s s := ⟨rfl, rfl, rfl, rfl, rfl, rfl, rfl⟩

theorem SameButVptr.of_vptr (s : RegState) (v : VptrState) : SameButVptr s { s with vptr := v } := ⟨rfl, rfl, rfl, rfl, rfl, rfl, rfl⟩

theorem SameButVptr.eq (h : SameButVptr s t) : s = { t with vptr := s.vptr } := by
  obtain ⟨h1, h2, h3, h4, h5, h6, h7⟩ := h
  cases s; cases t
  simp_all

/-- `initialize` without a vptr policy and with `vptr_map`, in corresponding states. -/
theorem initBare_mapped (B : BareEnv) (rnd : Nat → BitVec 64) (p : Program) (h : SameButVptr s t) :
    (initBare B p s = .ub ∧ initRegistry (B.mapped rnd) p t = .ub) ∨
    ∃ r s' t', initBare B p s = .ok { state := s', result := r } ∧ initRegistry (B.mapped rnd) p t = .ok { state := t', result := r } ∧ SameButVptr s' t' := by
  unfold initBare initRegistry
  have hpl : (B.mapped rnd).platform = B.platform := rfl
  have hn : (B.mapped rnd).n2216 = B.n2216 := rfl
  rw [hpl, hn, ← h.fresh]
  cases compile B.platform B.n2216 p with
  | ub => exact .inl ⟨rfl, rfl⟩
  | err e => exact .inr ⟨_, s, t, rfl, rfl, h⟩
  | ok c =>
    dsimp only
    cases hw : writeGlobal c s.fresh with
    | ub => exact .inl ⟨rfl, rfl⟩
    | err e => exact .inr ⟨_, s, t, rfl, rfl, h⟩
    | ok img =>
      obtain ⟨v, hv⟩ : ∃ v, vptrInit (B.mapped rnd).cfg (B.mapped rnd).rnd (applyImage c.lattice img t).svptr (ctxClasses c.lattice)
          (applyImage c.lattice img t).vptr = .ok { state := v, error := none } := ⟨_, rfl⟩
      dsimp only
      rw [hv]
      refine .inr ⟨_, _, _, rfl, rfl, ?_⟩
      · refine ⟨rfl, rfl, ?_, ?_, ?_, ?_, rfl⟩
        · exact congrArg (· + 1) h.fresh
        · show writeSvptr _ _ _ _ = writeSvptr _ _ _ _
          rw [h.svptr, h.fresh]
        · simp only [applyImage, h.ss]
        · simp only [applyImage, h.next]

theorem finalizeBare_mapped (E : Env) (h : SameButVptr s t) : SameButVptr (finalizeBare s) (finalize E t) :=
  ⟨rfl, h.gen, h.fresh, h.svptr, h.ss, h.next, rfl⟩

theorem Boots.mapped (rnd : Nat → BitVec 64) (h : Boots B p s s' rep) : ∃ t', Initializes (B.mapped rnd) p s t' rep ∧ SameButVptr s' t' := by
  unfold Boots at h
  rcases initBare_mapped B rnd p (SameButVptr.refl s) with ⟨e, _⟩ | ⟨r, s1, t1, e1, e2, e3⟩
  · rw [e] at h; cases h
  · rw [e1] at h
    simp only [Res.ok.injEq, InitOut.mk.injEq] at h
    obtain ⟨rfl, rfl⟩ := h
    exact ⟨t1, e2, e3⟩

/-! ## What does not read the data of the vptr policy -/

theorem unboxVptr_same (h : SameButVptr s t) (b : Boxed) : unboxVptr s b = unboxVptr t b := by
  cases b with
  | direct q => rfl
  | indirect v => exact congrFun h.svptr v

theorem final_same (h : SameButVptr s t) (cfg : Config) (poly : Bool) (st : TypeId) (v : VarId) (q : Option Obj) :
    VirtualPtr.final cfg s poly st v q = VirtualPtr.final cfg t poly st v q := by
  unfold VirtualPtr.final requireInitialized
  rw [h.initialized, h.svptr]

theorem embedded_same (h : SameButVptr s t) (cfg : Config) (e : Embedded) : embeddedPtr cfg s e = embeddedPtr cfg t e := by
  unfold embeddedPtr acquireEmbedded requireInitialized
  cases e <;> simp only [Embedded.read, h.initialized, h.svptr]

/-! ## The v-table pointers of the arguments -/

variable {E : Env} {gen : Nat} {c : Compiled} {img : Image}

theorem Ready.staticVar (R : Ready E p rep gen c img s) {t : TypeId} {v : VarId} (ht : p.HasId t) (hv : p.StaticVar (p.rtti.ti t) v) :
    s.svptr v = some (img.ptr gen (p.rtti.ti t)) := by
  have hx := HasId.order R ht
  have : some v = some _ := hv.symm.trans (lattice_svptr R.lattice _ hx)
  rw [Option.some.inj this]
  exact R.svptr _ hx

end OpenMethod
