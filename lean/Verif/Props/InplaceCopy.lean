import Verif.Proof.InplaceCopy
import Verif.Props.Inplace

/-! # C73: copies of objects that embed their v-table pointers -/

namespace OpenMethod.Props

variable {H : Hierarchy} {K : Copying} {src m : Embeds} {D D' c : Cls} {σ τ : Sub}

/-- C73 in full. The v-table pointers of an object that is a copy of an object, or of a base of an object, designate its class: in the bodies of the copy
constructors, that of the constructor, and then that of the copy. An object keeps its class when another object is assigned to it, or to a base of it. -/
def C73 : Prop :=
  ∀ (H : Hierarchy) (K : Copying) (src : Embeds) (D c : Cls) (τ : Sub), CopySource H src D c τ →
    (∀ (m : Embeds) (pre post : List CopyStep) (st : CopyStep), copyLife H c τ = pre ++ st :: post → st.Expected H (runCopy H K src m pre)) ∧
    (∀ (m : Embeds) (D' : Cls) (σ : Sub), EmbedsClass H m D' [D'] → Below H (D', [D']) (c, σ) → EmbedsClass H (assignVptr H K src c σ τ m) D' [D'])

theorem copy_split {pre post : List CopyStep} {y : Cls} {ρ : Sub} (h : copyLife H c τ = pre ++ .body y ρ :: post) :
    ∃ p x q, copied H c τ = p ++ x :: q ∧ x.1 = (y, ρ) ∧ pre = (p.flatMap copyOf) ++ [.mixin x.1.1 x.1.2 x.2] := by
  rw [copyLife_eq] at h
  have hin : ∃ post', (copied H c τ).flatMap copyOf = pre ++ .body y ρ :: post' := by
    rcases List.append_eq_append_iff.1 h with ⟨as, e1, e2⟩ | ⟨bs, e1, e2⟩
    · cases as with
      | nil => simp at e2
      | cons a as => simp at e2
    · cases bs with
      | nil => simp at e2
      | cons b bs =>
        rw [List.cons_append] at e2
        obtain ⟨rfl, _⟩ := List.cons.inj e2
        exact ⟨bs, e1⟩
  obtain ⟨post', h⟩ := hin
  obtain ⟨l1, x, l2, p, q, e1, e2, e3⟩ := flatMap_split _ _ _ _ _ h
  refine ⟨l1, x, l2, e1, ?_⟩
  unfold copyOf at e2
  match p, e2 with
  | [], e2 => simp at e2
  | [a], e2 =>
    simp only [List.cons_append, List.nil_append, List.cons.injEq, CopyStep.body.injEq] at e2
    obtain ⟨rfl, ⟨rfl, rfl⟩, _⟩ := e2
    exact ⟨rfl, e3⟩
  | a :: b :: p, e2 => simp at e2

/-- Exactly when a copy constructor body finds the right v-table pointers: its class uses the default constructor of the mixin; or it is the class of the
source and of the copy, and nothing in it uses the default constructor. In particular, the bodies of the copy constructors of the bases find the right ones only in the former case. -/
theorem C73_bodies (hs : CopySource H src D c τ) (m : Embeds) {pre post : List CopyStep} {y : Cls} {ρ : Sub} (h : copyLife H c τ = pre ++ .body y ρ :: post) :
    EmbedsClass H (runCopy H K src m pre) y ρ ↔ K.fresh y = true ∨ (y = D ∧ AllCopied H K D) := by
  obtain ⟨p, x, q, h1, h2, rfl⟩ := copy_split h
  have := copied_exact (K := K) hs m h1
  rw [h2] at this
  rw [runCopy_append, runCopy_nodes, ← this, List.foldl_append]
  rfl

/-- Exactly when the v-table pointers of a copy designate its class: its copy constructor uses the default constructor of its mixin; or no class in it does that, and the
source is not a base of an object of another class. -/
theorem C73_copy (hs : CopySource H src D c τ) (m : Embeds) {pre post : List CopyStep} (h : copyLife H c τ = pre ++ .alive c [c] :: post) :
    EmbedsClass H (runCopy H K src m pre) c [c] ↔ K.fresh c = true ∨ (c = D ∧ AllCopied H K D) := by
  have hpre : pre = (copied H c τ).flatMap copyOf := by
    rw [copyLife_eq] at h
    have hno : CopyStep.alive c [c] ∉ (copied H c τ).flatMap copyOf := by
      intro hm
      obtain ⟨x, _, hx⟩ := List.mem_flatMap.1 hm
      simp [copyOf] at hx
    rcases List.append_eq_append_iff.1 h with ⟨as, e1, e2⟩ | ⟨bs, e1, e2⟩
    · cases as with
      | nil => simpa using e1
      | cons a as => simp at e2
    · cases bs with
      | nil => simpa using e1.symm
      | cons b bs =>
        rw [List.cons_append] at e2
        obtain ⟨rfl, _⟩ := List.cons.inj e2
        exact absurd (by rw [e1]; simp) hno
  obtain ⟨p, hp⟩ := copied_last (H := H) c τ
  rw [hpre, runCopy_nodes, hp]
  exact copied_exact hs m (q := []) hp

/-- The construction ends with a complete object, and each of its subobjects has a body. -/
theorem C73_complete : (∃ pre, copyLife H c τ = pre ++ [.alive c [c]]) ∧ ∀ x, Below H (c, [c]) x → .body x.1 x.2 ∈ copyLife H c τ := by
  rw [copyLife_eq]
  refine ⟨⟨_, rfl⟩, fun x hx => ?_⟩
  obtain ⟨z, hz, rfl⟩ := below_copied (τ := τ) hx
  exact List.mem_append.2 (.inl (List.mem_flatMap.2 ⟨z, hz, by simp [copyOf]⟩))

/-- If no class of the copy uses the default constructor of its mixin, the v-table pointers of the copy, wherever they are read, are those of the source: a copy of the base of an
object has the class of the object. -/
theorem C73_sliced (hs : CopySource H src D c τ) (hk : AllCopied H K c) (m : Embeds) {y : Cls} {ρ : Sub} (hy : Below H (c, [c]) (y, ρ)) :
    runCopy H K src m (copyLife H c τ) (vptrRoot H y ρ) = some D := by
  obtain ⟨a, ha, hb⟩ := (vptrRoot_rootOf (H := H) y ρ).above hy
  obtain ⟨z, hz, e⟩ := below_copied (τ := τ) ha
  obtain ⟨d, h1, h2⟩ := copied_values (K := K) hs m _ [] (List.append_nil _).symm z hz (by rw [e]; exact hb)
  rw [copyLife_eq, runCopy_append, runCopy_nodes]
  rw [e] at h1
  refine Eq.trans h1 (congrArg some ?_)
  rcases h2 with rfl | ⟨x, hx, hf, _⟩
  · rfl
  · rw [hk _ (copied_below hx)] at hf
    cases hf

/-- Exactly when an object keeps its class when (a base of) another object is assigned to (a base of) it: they have the same class, or the root subobjects
do not assign their v-table pointers. -/
theorem C73_assign (hs : CopySource H src D c τ) (hm : EmbedsClass H m D' [D']) (hσ : Below H (D', [D']) (c, σ)) :
    EmbedsClass H (assignVptr H K src c σ τ m) D' [D'] ↔ D = D' ∨ RootsKeep H K c σ := by
  have hsrc : ∀ r, RootOf H (c, τ) r → src r = some D := fun r hr => hs.alive r (hr.above hs.sub)
  have hw : WellNamed (c, σ) := hσ.wellNamed ⟨[], rfl⟩
  have spec : ∀ a r, Below H (D', [D']) (a, r) → H.bases a = [] → _ := fun a r har ha =>
    assignVptr_spec (K := K) (src := src) (D := D) ha (har.wellNamed ⟨[], rfl⟩) c σ τ hw hsrc m
  constructor
  · intro h
    by_cases e : D = D'
    · exact .inl e
    · refine .inr fun y hy hyb => ?_
      have h1 := (spec y.1 y.2 (hσ.trans hy) hyb).1 hy
      rw [h _ ⟨y.1, hσ.trans hy, hyb⟩] at h1
      by_contra hk
      rw [if_neg hk] at h1
      exact e (Option.some.inj h1).symm
  · intro h r hr
    obtain ⟨a, har, ha⟩ := hr
    by_cases hb : Below H (c, σ) (a, r)
    · rw [(spec a r har ha).1 hb]
      rcases h with rfl | h
      · rw [hm r ⟨a, har, ha⟩, ite_self]
      · rw [if_pos (h (a, r) hb ha), hm r ⟨a, har, ha⟩]
    · rw [(spec a r har ha).2 hb, hm r ⟨a, har, ha⟩]

/-- Otherwise, the v-table pointers of the root subobjects that are assigned designate the class of the source. -/
theorem C73_assigned (hs : CopySource H src D c τ) (m : Embeds) (hσ : Below H (D', [D']) (c, σ)) {a : Cls} {r : Sub} (hr : Below H (c, σ) (a, r)) (ha : H.bases a = []) (hk : K.keeps a = false) :
    assignVptr H K src c σ τ m r = some D := by
  rw [(assignVptr_spec (K := K) (src := src) (D := D) ha ((hσ.trans hr).wellNamed ⟨[], rfl⟩) c σ τ (hσ.wellNamed ⟨[], rfl⟩)
    (fun r hr => hs.alive r (hr.above hs.sub)) m).1 hr, if_neg (by rw [hk]; decide)]

/-- Assignments from a base of an object to another base of it, or to the same. -/
theorem C73_within (hm : EmbedsClass H m D [D]) (hτ : Below H (D, [D]) (c, τ)) : EmbedsClass H (assignWithin H K c σ τ m) D [D] :=
  assignWithin_embeds c σ τ hτ m hm

/-- C73 when the copy has the class of the source, there are no user-written copy constructors that use the default constructor of the mixin, or the copy constructor of the
class of the copy is one; and the target of an assignment has the class of the source, or the root classes have user-written assignments that do not assign the
mixin. The destructors then find the right v-table pointers, like those of any object (C37). -/
theorem C73_partial (hs : CopySource H src D c τ) :
    (K.fresh c = true ∨ (c = D ∧ AllCopied H K D) → ∀ m, EmbedsClass H (runCopy H K src m (copyLife H c τ)) c [c] ∧
      (Unshared H c → AllExpected H (runCopy H K src m (copyLife H c τ)) (dtorSteps H c [c] ++ (virtualBases H c).reverse.flatMap (fun v => dtorSteps H v [v])))) ∧
    ((∀ y, Below H (c, [c]) y → K.fresh y.1 = true) → ∀ (m : Embeds) (pre post : List CopyStep) (st : CopyStep), copyLife H c τ = pre ++ st :: post →
      st.Expected H (runCopy H K src m pre)) ∧
    (∀ (m : Embeds) (D' : Cls) (σ : Sub), EmbedsClass H m D' [D'] → Below H (D', [D']) (c, σ) → D = D' ∨ RootsKeep H K c σ →
      EmbedsClass H (assignVptr H K src c σ τ m) D' [D']) := by
  obtain ⟨⟨pre0, h0⟩, _⟩ := C73_complete (H := H) (c := c) (τ := τ)
  have hrun : ∀ m, runCopy H K src m (copyLife H c τ) = runCopy H K src m pre0 := by
    intro m; rw [h0, runCopy_append]; rfl
  refine ⟨fun h m => ?_, fun h m pre post st e => ?_, fun m D' σ hm hσ h => (C73_assign hs hm hσ).2 h⟩
  · have he : EmbedsClass H (runCopy H K src m (copyLife H c τ)) c [c] := by
      rw [hrun]
      exact (C73_copy hs m h0).2 h
    exact ⟨he, fun hu => by rw [destroyed_steps]; exact destroyed_expected hu he⟩
  · cases st with
    | mixin => trivial
    | body y ρ =>
      obtain ⟨p, x, q, h1, h2, _⟩ := copy_split e
      have hb := copied_below (x := x) (τ := τ) (by rw [h1]; simp)
      rw [h2] at hb
      exact (C73_bodies hs m e).2 (.inl (h _ hb))
    | alive y ρ =>
      have hmem : CopyStep.alive y ρ ∈ copyLife H c τ := by rw [e]; simp
      rw [copyLife_eq, List.mem_append, List.mem_singleton, CopyStep.alive.injEq] at hmem
      rcases hmem with hm | ⟨rfl, rfl⟩
      · obtain ⟨x, _, hx⟩ := List.mem_flatMap.1 hm
        simp [copyOf] at hx
      · exact (C73_copy hs m e).2 (.inl (h _ (.refl _)))

/-! ## C73 does not hold -/

/-- `Animal`, `Dog`, `Bulldog`, `Cat`. -/
def kennel : Hierarchy := hierarchyOf [[], [(0, false)], [(1, false)], [(0, false)]] (by decide) (by decide)

/-- The v-table pointer of an object of the class that is alive. -/
def objectOf (D : Cls) : Embeds := fun _ => some D

theorem source_of {D c : Cls} {τ : Sub} (h : Below H (D, [D]) (c, τ)) : CopySource H (objectOf D) D c τ := ⟨fun _ _ => rfl, h⟩

/-- No user-written copy constructors and assignments. -/
def implicit : Copying := ⟨fun _ => false, fun _ => false⟩

theorem dog_animal : Below kennel (1, [1]) (0, [0, 1]) := .step (0, false) (by decide) (.refl _)

theorem cat_animal : Below kennel (3, [3]) (0, [0, 3]) := .step (0, false) (by decide) (.refl _)

/-- `Animal a = dog;`: `a` is a dog for the methods. -/
theorem C73_refuted : ¬ C73 := by
  intro h
  have h1 := (h kennel implicit (objectOf 1) 1 0 [0, 1] (source_of dog_animal)).1 (fun _ => none) _ [] _
    (show copyLife kennel 0 [0, 1] = [.mixin 0 [0] [0, 1], .body 0 [0]] ++ CopyStep.alive 0 [0] :: [] by decide +kernel)
  have h2 := (C73_copy (K := implicit) (source_of dog_animal) (fun _ => none) (post := [])
    (show copyLife kennel 0 [0, 1] = [.mixin 0 [0] [0, 1], .body 0 [0]] ++ CopyStep.alive 0 [0] :: [] by decide +kernel)).1 h1
  rcases h2 with h2 | ⟨h2, _⟩
  · exact absurd h2 (by decide)
  · exact absurd h2 (by decide)

/-- A copy of a `Bulldog` is a `Dog` for the methods, if the copy constructor of `Dog` is user-written, and does not mention the mixin, and that of `Bulldog` is implicit. -/
theorem C73_user_refuted : ∃ K : Copying, CopySource kennel (objectOf 2) 2 2 [2] ∧ runCopy kennel K (objectOf 2) (fun _ => none) (copyLife kennel 2 [2]) [0, 1, 2] = some 1 ∧
    RootOf kennel (2, [2]) [0, 1, 2] :=
  ⟨⟨fun c => c == 1, fun _ => false⟩, source_of (.refl _), by decide +kernel, 0, .step (1, false) (by decide) (.step (0, false) (by decide) (.refl _)), by decide⟩

/-- In the body of a copy constructor of `Animal` that copies its mixin, called to copy a dog, the object is a dog, which does not exist yet. -/
theorem C73_body_refuted : copyLife kennel 1 [1] = [.mixin 0 [0, 1] [0, 1]] ++ CopyStep.body 0 [0, 1] :: [.mixin 1 [1] [1], .body 1 [1], .alive 1 [1]] ∧
    ¬ EmbedsClass kennel (runCopy kennel implicit (objectOf 1) (fun _ => none) [.mixin 0 [0, 1] [0, 1]]) 0 [0, 1] := by
  have h : copyLife kennel 1 [1] = [.mixin 0 [0, 1] [0, 1]] ++ CopyStep.body 0 [0, 1] :: [.mixin 1 [1] [1], .body 1 [1], .alive 1 [1]] := by decide +kernel
  refine ⟨h, fun he => ?_⟩
  rcases (C73_bodies (K := implicit) (source_of (.refl _)) (fun _ => none) h).1 he with h2 | ⟨h2, _⟩
  · exact absurd h2 (by decide)
  · exact absurd h2 (by decide)

/-- `Animal& animal = cat; animal = dog;`: the cat is a dog for the methods. -/
theorem C73_assign_refuted : CopySource kennel (objectOf 1) 1 0 [0, 1] ∧ EmbedsClass kennel (objectOf 3) 3 [3] ∧ Below kennel (3, [3]) (0, [0, 3]) ∧
    RootOf kennel (3, [3]) [0, 3] ∧ assignVptr kennel implicit (objectOf 1) 0 [0, 3] [0, 1] (objectOf 3) [0, 3] = some 1 :=
  ⟨source_of dog_animal, fun _ _ => rfl, cat_animal, ⟨0, cat_animal, by decide⟩, C73_assigned (source_of dog_animal) _ cat_animal (.refl _) (by decide) rfl⟩

/-! ## Cases -/

/-- Copies of dogs without slicing, and slices when the copy constructor of `Animal` is user-written. -/
example : AllCopied kennel implicit 1 ∧ CopySource kennel (objectOf 1) 1 1 [1] ∧
    runCopy kennel implicit (objectOf 1) (fun _ => none) (copyLife kennel 1 [1]) [0, 1] = some 1 ∧
    runCopy kennel ⟨fun c => c == 0, fun _ => false⟩ (objectOf 1) (fun _ => none) (copyLife kennel 0 [0, 1]) [0] = some 0 :=
  ⟨fun _ _ => rfl, source_of (.refl _), by decide +kernel, by decide +kernel⟩

/-- In a diamond the shared v-table pointer is copied once, and the last default constructor wins. -/
example : CopySource diamond (objectOf 3) 3 3 [3] ∧ copyLife diamond 3 [3] = [.mixin 0 [0] [0], .body 0 [0], .mixin 1 [1, 3] [1, 3], .body 1 [1, 3], .mixin 2 [2, 3] [2, 3], .body 2 [2, 3],
    .mixin 3 [3] [3], .body 3 [3], .alive 3 [3]] ∧ runCopy diamond ⟨fun c => c == 1, fun _ => false⟩ (objectOf 3) (fun _ => none) (copyLife diamond 3 [3]) [0] = some 1 :=
  ⟨source_of (.refl _), by decide +kernel, by decide +kernel⟩

/-- A copy of a base of `repeated`: the subobject of class 3 of an object of class 4, with two roots. -/
example : CopySource repeated (objectOf 4) 4 3 [3, 4] ∧ AllCopied repeated implicit 3 ∧ Below repeated (3, [3]) (2, [2, 3]) ∧
    runCopy repeated implicit (objectOf 4) (fun _ => none) (copyLife repeated 3 [3, 4]) [2, 3] = some 4 :=
  ⟨source_of (.step (3, false) (by decide) (.refl _)), fun _ _ => rfl, .step (2, false) (by decide) (.refl _), by decide +kernel⟩

/-- Assignments that keep the class: between dogs, and with a user-written assignment of `Animal`. -/
example : EmbedsClass kennel (assignVptr kennel implicit (objectOf 1) 1 [1] [1] (objectOf 1)) 1 [1] ∧
    RootsKeep kennel ⟨fun _ => false, fun c => c == 0⟩ 0 [0, 3] ∧
    EmbedsClass kennel (assignVptr kennel ⟨fun _ => false, fun c => c == 0⟩ (objectOf 1) 0 [0, 3] [0, 1] (objectOf 3)) 3 [3] := by
  have hk : RootsKeep kennel ⟨fun _ => false, fun c => c == 0⟩ 0 [0, 3] := by
    intro y hy _
    have : y.1 = 0 := Nat.le_zero.1 hy.le
    simp [this]
  exact ⟨(C73_assign (source_of (.refl _)) (fun _ _ => rfl) (.refl _)).2 (.inl rfl), hk, (C73_assign (source_of dog_animal) (fun _ _ => rfl) cat_animal).2 (.inr hk)⟩

/-- One base of `repeated` assigned to another. -/
example : Below repeated (4, [4]) (0, [0, 1, 4]) ∧ Below repeated (4, [4]) (0, [0, 3, 4]) ∧ assignWithin repeated implicit 0 [0, 1, 4] [0, 3, 4] (objectOf 4) [0, 1, 4] = some 4 :=
  ⟨.step (1, false) (by decide) (.step (0, false) (by decide) (.refl _)), .step (3, false) (by decide) (.step (0, false) (by decide) (.refl _)), by decide +kernel⟩

end OpenMethod.Props
