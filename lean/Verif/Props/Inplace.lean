import Verif.Proof.Inplace
import Verif.Proof.History
import Verif.Props.Registry

/-! # C37 and C50: inplace_vptr -/

namespace OpenMethod.Props

open Spec Examples

variable {H : Hierarchy} {D : Cls} {E E' : Env} {p p' : Program} {s s' s0 s1 s2 : RegState} {rep rep' : Report}

/-! ## C37: embedded pointers follow construction and destruction -/

/-- C37 in full: whatever the memory contained, each constructor body, each destructor body, and the users of the complete object, find
v-table pointers that designate the class of the object, which is that of the constructor or destructor while it runs. -/
def C37 : Prop := ∀ (H : Hierarchy) (D : Cls) (m : Embeds) (pre post : List LifeStep) (st : LifeStep), life H D = pre ++ st :: post → st.Expected H (runLife H m pre)

/-- The steps of the life of an object until it is fully constructed. -/
theorem construction_expected (m : Embeds) : AllExpected H m ((virtualBases H D).flatMap (fun v => ctorSteps H v [v]) ++ ctorSteps H D [D] ++ [.alive D [D]]) := by
  refine allExpected_append (allExpected_append (allExpected_flatMap _ _ (fun v _ m => (ctorSteps_expected v [v] m).1) m) (ctorSteps_expected D [D] _).1) ?_
  refine allExpected_cons ?_ (allExpected_nil _)
  rw [runLife_append]
  exact (ctorSteps_expected D [D] _).2

/-- C37 for constructors, and for complete objects: every hierarchy. -/
theorem C37_construction (m : Embeds) {pre post : List LifeStep} {st : LifeStep} (h : life H D = pre ++ st :: post) (hst : ∀ c σ, st ≠ .dtorBody c σ) :
    st.Expected H (runLife H m pre) := by
  unfold life at h
  rw [List.append_assoc] at h
  rcases List.append_eq_append_iff.1 h with ⟨as, e1, e2⟩ | ⟨bs, e1, e2⟩
  · rw [destroyed_steps] at e2
    have hm : st ∈ (destroyed H D).flatMap dtorOf := by rw [e2]; simp
    obtain ⟨k, _, hk⟩ := List.mem_flatMap.1 hm
    rcases List.mem_cons.1 hk with rfl | hk
    · exact absurd rfl (hst _ _)
    · rw [List.mem_singleton] at hk
      rw [hk]; trivial
  · cases bs with
    | nil =>
      have hm : st ∈ (destroyed H D).flatMap dtorOf := by rw [← destroyed_steps]; exact (show st :: post = _ from e2) ▸ List.mem_cons_self
      obtain ⟨k, _, hk⟩ := List.mem_flatMap.1 hm
      rcases List.mem_cons.1 hk with rfl | hk
      · exact absurd rfl (hst _ _)
      · rw [List.mem_singleton] at hk
        rw [hk]; trivial
    | cons z bs =>
      rw [List.cons_append] at e2
      obtain ⟨rfl, _⟩ := List.cons.inj e2
      exact construction_expected m pre st bs e1

/-- C37, including destructors, when no v-table pointer is shared by two bases of a class. -/
theorem C37_partial (hu : Unshared H D) (m : Embeds) {pre post : List LifeStep} {st : LifeStep} (h : life H D = pre ++ st :: post) :
    st.Expected H (runLife H m pre) := by
  have hall : AllExpected H m (life H D) := by
    unfold life
    rw [List.append_assoc, destroyed_steps]
    refine allExpected_append (construction_expected m) (destroyed_expected hu ?_)
    rw [runLife_append, runLife_append]
    exact (ctorSteps_expected D [D] _).2
  exact hall pre st post h

/-- In particular without virtual inheritance. -/
theorem C37_nonVirtual (hnv : ∀ c, ∀ b ∈ H.bases c, b.2 = false) (m : Embeds) {pre post : List LifeStep} {st : LifeStep} (h : life H D = pre ++ st :: post) :
    st.Expected H (runLife H m pre) :=
  C37_partial (unshared_of_nonVirtual hnv D) m h

/-- Or without multiple inheritance. -/
theorem C37_single (hs : ∀ c, (H.bases c).length ≤ 1) (m : Embeds) {pre post : List LifeStep} {st : LifeStep} (h : life H D = pre ++ st :: post) :
    st.Expected H (runLife H m pre) :=
  C37_partial (unshared_of_single hs D) m h

/-- The v-table pointer that `boost_openmethod_vptr` finds, given any subobject of a complete object that is alive, designates the class of the complete
object. -/
theorem C37_read (m : Embeds) {pre post : List LifeStep} (h : life H D = pre ++ .alive D [D] :: post) {c : Cls} {σ : Sub} (hc : Below H (D, [D]) (c, σ)) :
    runLife H m pre (vptrRoot H c σ) = some D :=
  C37_construction m h (fun _ _ e => LifeStep.noConfusion e) _ ((vptrRoot_rootOf c σ).above hc)

/-- Every subobject has a constructor body and a destructor body in the life of an object. -/
theorem C37_complete {x : Node} (hx : Below H (D, [D]) x) : .ctorBody x.1 x.2 ∈ life H D ∧ .dtorBody x.1 x.2 ∈ life H D := by
  have hd : ∀ (c : Cls) (σ : Sub) (y : Node), y ∈ dtorOrder H c σ → LifeStep.ctorBody y.1 y.2 ∈ ctorSteps H c σ := by
    intro c
    induction c using Nat.strongRecOn with
    | _ c ih =>
      intro σ y hy
      rw [ctorSteps]
      rcases mem_dtorOrder.1 hy with rfl | ⟨b, hb, hv, hy⟩
      · simp
      · refine List.mem_append.2 (.inl (List.mem_flatMap.2 ⟨⟨b, hb⟩, ?_, ih b.1 (H.lt c b hb) _ y hy⟩))
        rw [List.mem_filter]
        exact ⟨List.mem_attach _ _, by simp [hv]⟩
  constructor
  · unfold life
    rcases Below.part D [D] x hx with h | ⟨w, hw, h⟩
    · simp [hd D [D] x h]
    · have : LifeStep.ctorBody x.1 x.2 ∈ (virtualBases H D).flatMap (fun v => ctorSteps H v [v]) := List.mem_flatMap.2 ⟨w, hw, hd w [w] x h⟩
      simp only [List.append_assoc]
      exact List.mem_append.2 (.inl this)
  · unfold life
    rw [List.append_assoc, destroyed_steps]
    exact List.mem_append.2 (.inr (List.mem_flatMap.2 ⟨x, below_destroyed hx, by simp [dtorOf]⟩))

/-- A hierarchy given by the bases of its first classes. -/
def hierarchyOf (l : List (List (Cls × Bool))) (h1 : ∀ (i : Fin l.length), ∀ b ∈ l[i], b.1 < i.1) (h2 : ∀ b ∈ l, (b.map (·.1)).Nodup) : Hierarchy where
  bases c := l[c]?.getD []
  lt c b hb := by
    cases hc : l[c]? with
    | none => rw [hc] at hb; simp at hb
    | some x =>
      rw [hc] at hb
      obtain ⟨hlt, rfl⟩ := List.getElem?_eq_some_iff.1 hc
      exact h1 ⟨c, hlt⟩ b hb
  nodup c := by
    cases hc : l[c]? with
    | none => simp
    | some x => exact h2 x (List.mem_of_getElem? hc)

/-- Class 0, two classes with 0 as a virtual base, and a class derived from both. -/
def diamond : Hierarchy := hierarchyOf [[], [(0, true)], [(0, true)], [(1, false), (2, false)]] (by decide) (by decide)

/-- C37 does not hold for destructors when a v-table pointer is shared: in the destructor of class 1 called by that of class 3, the v-table pointer
designates class 0, because the destructor of class 2 has already set it to its base. -/
theorem C37_refuted : ¬ C37 := by
  intro h
  have hlife : life diamond 3 = (life diamond 3).take 13 ++ .dtorBody 1 [1, 3] :: (life diamond 3).drop 14 := by decide +kernel
  have h1 := h diamond 3 (fun _ => none) _ _ _ hlife [0] ⟨0, .step (0, true) (by decide) (.refl _), by decide⟩
  have h2 : runLife diamond (fun _ => none) ((life diamond 3).take 13) [0] = some 0 := by decide +kernel
  rw [h2] at h1
  exact absurd h1 (by decide)

/-- Two roots, and a repeated base: `Unshared`, hence C37. -/
def repeated : Hierarchy := hierarchyOf [[], [(0, false)], [], [(0, false), (2, false)], [(1, false), (3, false)]] (by decide) (by decide)

example : Unshared repeated 4 := by
  refine unshared_of_nonVirtual (fun c b hb => ?_) 4
  match c with
  | 0 | 1 | 2 | 3 | 4 => exact (by decide : ∀ c < 5, ∀ b ∈ repeated.bases c, b.2 = false) _ (by decide) b hb
  | n + 5 => exact absurd hb (by simp [repeated, hierarchyOf])

/-- The three roots of an object of class 4. -/
example : ∀ r ∈ [[0, 1, 4], [0, 3, 4], [2, 3, 4]], RootOf repeated (4, [4]) r ∧ runLife repeated (fun _ => none) ((life repeated 4).take 12) r = some 4 := by
  intro r hr
  have hcases : r = [0, 1, 4] ∨ r = [0, 3, 4] ∨ r = [2, 3, 4] := by simpa using hr
  rcases hcases with rfl | rfl | rfl
  · exact ⟨⟨0, .step (1, false) (by decide) (.step (0, false) (by decide) (.refl _)), by decide⟩, by decide +kernel⟩
  · exact ⟨⟨0, .step (3, false) (by decide) (.step (0, false) (by decide) (.refl _)), by decide⟩, by decide +kernel⟩
  · exact ⟨⟨2, .step (3, false) (by decide) (.step (2, false) (by decide) (.refl _)), by decide⟩, by decide +kernel⟩

/-- A virtual base that is not shared. -/
example : Unshared (hierarchyOf [[], [(0, true)], [(1, true)]] (by decide) (by decide)) 2 := by
  refine unshared_of_single (fun c => ?_) 2
  match c with
  | 0 | 1 | 2 => decide
  | n + 3 => simp [hierarchyOf]

/-! ## C50: embedded pointers and virtual_ptr -/

/-- C50 in full: with indirect_vptr, a `virtual_ptr` created from an object that embeds its v-table pointer can be used at any later time. The object was
constructed in state `s0`, and its class uses variable `v`. -/
def C50 : Prop :=
  ∀ (E : Env) (p : Program) (s s0 s1 s2 : RegState) (rep : Report) (t : TypeId) (v : VarId) (w : TempBoxed),
    E.cfg.indirect = true → p.Good E.cfg → Initializes E p s s1 rep → p.HasId t → p.StaticVar (p.rtti.ti t) v → virtualPtrOfEmbedded E.cfg s1 (embed E.cfg s0 v) = .ok w →
    Steps E.cfg s1 s2 → ∃ q, w.ptr = .ok q

/-- No such `virtual_ptr` can be used. -/
theorem C50_never (cfg : Config) (hi : cfg.indirect = true) (e : Embedded) {w : TempBoxed} (h : virtualPtrOfEmbedded cfg s e = .ok w) : w.ptr = .ub := by
  unfold virtualPtrOfEmbedded at h
  cases ha : acquireEmbedded cfg s e with
  | ok q =>
    rw [ha] at h
    rw [← Res.ok.inj h]
    simp [boxEmbedded, hi, TempBoxed.ptr]
  | err e => rw [ha] at h; cases h
  | ub => rw [ha] at h; cases h

/-- What does hold: an object that embeds its v-table pointer, constructed at any time, even before the first `initialize`, can be used in
calls, like an object whose v-table pointer is looked up, after any successful `initialize`. -/
theorem C50_partial (hi : E.cfg.indirect = true) (hp : p.Good E.cfg) (h : Initializes E p s s' rep) {t : TypeId} {v : VarId} (ht : p.HasId t)
    (hv : p.StaticVar (p.rtti.ti t) v) (s0 : RegState) :
    embeddedPtr E.cfg s' (embed E.cfg s0 v) = argPtr E.cfg s' (.obj t) ∧ ∃ q, argPtr E.cfg s' (.obj t) = .ok q ∧ q.gen = s'.gen := by
  obtain ⟨c, img, R, _⟩ := init_ready hp h
  have hx := HasId.order R ht
  have hvar : some v = some _ := hv.symm.trans (lattice_svptr R.lattice _ hx)
  have hq := R.argPtr ht
  refine ⟨?_, _, hq, R.storage.symm⟩
  rw [hq, embed, if_pos hi, Option.some.inj hvar]
  unfold embeddedPtr acquireEmbedded
  rw [R.require, Res.ok_bind]
  simp [Embedded.read, R.svptr _ hx]

/-- Without indirect_vptr: objects constructed after `initialize`, and `virtual_ptr`s created from them, can be used. -/
theorem C50_direct (hi : E.cfg.indirect = false) (hp : p.Good E.cfg) (h : Initializes E p s s' rep) {t : TypeId} {v : VarId} (ht : p.HasId t)
    (hv : p.StaticVar (p.rtti.ti t) v) :
    embeddedPtr E.cfg s' (embed E.cfg s' v) = argPtr E.cfg s' (.obj t) ∧
    ∃ w, virtualPtrOfEmbedded E.cfg s' (embed E.cfg s' v) = .ok w ∧ w.ptr = argPtr E.cfg s' (.obj t) := by
  obtain ⟨c, img, R, _⟩ := init_ready hp h
  have hx := HasId.order R ht
  have hvar : some v = some _ := hv.symm.trans (lattice_svptr R.lattice _ hx)
  have hq := R.argPtr ht
  have hacq : acquireEmbedded E.cfg s' (embed E.cfg s' v) = .ok (some (img.ptr s.fresh (p.rtti.ti t))) := by
    unfold acquireEmbedded
    rw [R.require, Res.ok_bind, embed, if_neg (by rw [hi]; decide), Option.some.inj hvar]
    simp [Embedded.read, R.svptr _ hx]
  refine ⟨?_, .direct (some (img.ptr s.fresh (p.rtti.ti t))), ?_, ?_⟩
  · rw [hq]; unfold embeddedPtr; rw [hacq]; rfl
  · unfold virtualPtrOfEmbedded
    rw [hacq]
    simp [boxEmbedded, hi]
  · rw [hq]; rfl

/-- C50 does not hold: `box_vptr` takes the address of a temporary. -/
theorem C50_refuted : ¬ C50 := by
  intro h
  have hrun : (initOf (env (Config.ind mapped)) zoo .init).map (fun x => virtualPtrOfEmbedded (Config.ind mapped) x.1 (embed (Config.ind mapped) x.1 4)) = some (.ok .temporary) := by decide +kernel
  rw [Option.map_eq_some_iff] at hrun
  obtain ⟨⟨s1, rep⟩, h1, hrun⟩ := hrun
  have hg : zoo.Good (env (Config.ind mapped)).cfg := good (by decide +kernel)
  obtain ⟨q, hq⟩ := h (env (Config.ind mapped)) zoo .init .init s1 s1 rep 4 4 .temporary rfl hg (initOf_eq h1) ⟨cls 4 [2, 1], by decide, rfl⟩ (show _ = _ by decide) hrun .refl
  rw [C50_never (s := s1) (Config.ind mapped) rfl _ hrun] at hq
  cases hq

/-- Class 4 of `zoo`. -/
example : zoo.Good (Config.ind mapped) ∧ zoo.HasId 4 ∧ zoo.StaticVar (zoo.rtti.ti 4) 4 := ⟨good (by decide +kernel), ⟨cls 4 [2, 1], by decide, rfl⟩, show _ = _ by decide⟩

end OpenMethod.Props
