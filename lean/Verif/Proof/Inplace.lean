import Verif.SpecInplace
import Mathlib.Data.List.Nodup
import Mathlib.Data.List.Basic

/-! # Lemmas about inplace_vptr -/

namespace OpenMethod

variable {H : Hierarchy}

/-! ## Subobjects -/

theorem Below.trans {x y z : Node} (h : Below H x y) (h' : Below H y z) : Below H x z := by
  induction h with
  | refl => exact h'
  | step b hb _ ih => exact .step b hb (ih h')

theorem Below.le {x y : Node} (h : Below H x y) : y.1 ≤ x.1 := by
  induction h with
  | refl => exact Nat.le_refl _
  | step b hb _ ih => exact Nat.le_trans ih (Nat.le_of_lt (H.lt _ b hb))

theorem Below.eq_of_le {x y : Node} (h : Below H x y) (hle : x.1 ≤ y.1) : x = y := by
  cases h with
  | refl => rfl
  | step b hb h => exact absurd (Nat.lt_of_le_of_lt h.le (H.lt _ b hb)) (Nat.not_lt.2 hle)

theorem Below.cases {x y : Node} (h : Below H x y) : x = y ∨ ∃ b ∈ H.bases x.1, Below H (b.1, baseSub x.2 b) y := by
  cases h with
  | refl => exact .inl rfl
  | step b hb h => exact .inr ⟨b, hb, h⟩

/-- The class of a subobject is the head of its path. -/
def WellNamed (x : Node) : Prop := ∃ l, x.2 = x.1 :: l

theorem wellNamed_child (x : Node) (b : Cls × Bool) : WellNamed (b.1, baseSub x.2 b) := by
  unfold WellNamed baseSub
  split
  · exact ⟨[], rfl⟩
  · exact ⟨_, rfl⟩

theorem Below.wellNamed {x y : Node} (h : Below H x y) (hx : WellNamed x) : WellNamed y := by
  induction h with
  | refl => exact hx
  | step b hb _ ih => exact ih (wellNamed_child _ b)

theorem WellNamed.ext {x y : Node} (hx : WellNamed x) (hy : WellNamed y) (h : x.2 = y.2) : x = y := by
  obtain ⟨l, e⟩ := hx
  obtain ⟨l', e'⟩ := hy
  rw [e, e'] at h
  exact Prod.ext (List.cons.inj h).1 (by rw [e, e', h])

theorem rootOf_leaf {x : Node} (h : H.bases x.1 = []) (r : Sub) : RootOf H x r ↔ r = x.2 := by
  constructor
  · rintro ⟨a, hb, _⟩
    rcases hb.cases with e | ⟨b, hb, _⟩
    · exact congrArg Prod.snd e.symm
    · rw [h] at hb; simp at hb
  · rintro rfl
    exact ⟨x.1, .refl _, h⟩

theorem rootOf_step {x : Node} (h : H.bases x.1 ≠ []) (r : Sub) : RootOf H x r ↔ ∃ b ∈ H.bases x.1, RootOf H (b.1, baseSub x.2 b) r := by
  constructor
  · rintro ⟨a, hb, ha⟩
    rcases hb.cases with e | ⟨b, hb, h'⟩
    · rw [e] at h; exact absurd ha h
    · exact ⟨b, hb, a, h', ha⟩
  · rintro ⟨b, hb, a, h', ha⟩
    exact ⟨a, .step b hb h', ha⟩

theorem RootOf.above {x y : Node} (h : Below H x y) {r : Sub} (hr : RootOf H y r) : RootOf H x r := by
  obtain ⟨a, h', ha⟩ := hr
  exact ⟨a, h.trans h', ha⟩

/-! ## Stores -/

theorem updateVptr_spec (H : Hierarchy) (t : Cls) : ∀ (c : Cls) (σ : Sub) (m : Embeds) (r : Sub),
    (RootOf H (c, σ) r → updateVptr H t c σ m r = some t) ∧ (¬ RootOf H (c, σ) r → updateVptr H t c σ m r = m r) := by
  intro c
  induction c using Nat.strongRecOn with
  | _ c ih =>
    intro σ m r
    rw [updateVptr]
    split
    · next h =>
      rw [rootOf_leaf (x := (c, σ)) h]
      constructor
      · rintro rfl; simp
      · intro hr; rw [Function.update_of_ne hr]
    · next h =>
      rw [rootOf_step (x := (c, σ)) h]
      have key : ∀ (l : List { b // b ∈ H.bases c }) (m : Embeds),
          ((∃ b ∈ l, RootOf H (b.1.1, baseSub σ b.1) r) → l.foldl (fun m b => updateVptr H t b.1.1 (baseSub σ b.1) m) m r = some t) ∧
          ((∀ b ∈ l, ¬ RootOf H (b.1.1, baseSub σ b.1) r) → l.foldl (fun m b => updateVptr H t b.1.1 (baseSub σ b.1) m) m r = m r) := by
        intro l
        induction l with
        | nil => intro m; simp
        | cons b l ihl =>
          intro m
          rw [List.foldl_cons]
          have hb := ih b.1.1 (H.lt c b.1 b.2) (baseSub σ b.1) m r
          by_cases hl : ∃ b ∈ l, RootOf H (b.1.1, baseSub σ b.1) r
          · refine ⟨fun _ => (ihl _).1 hl, fun hn => ?_⟩
            obtain ⟨b', hb', hr⟩ := hl
            exact absurd hr (hn b' (by simp [hb']))
          · have hl' : ∀ b ∈ l, ¬ RootOf H (b.1.1, baseSub σ b.1) r := fun b hb hr => hl ⟨b, hb, hr⟩
            rw [(ihl _).2 hl']
            refine ⟨?_, fun hn => hb.2 (hn b (by simp))⟩
            rintro ⟨b', hb', hr⟩
            rcases List.mem_cons.1 hb' with rfl | hb'
            · exact hb.1 hr
            · exact absurd hr (hl' b' hb')
      refine ⟨?_, ?_⟩
      · rintro ⟨b, hb, hr⟩
        exact (key _ m).1 ⟨⟨b, hb⟩, List.mem_attach _ _, hr⟩
      · intro hn
        exact (key _ m).2 fun b _ hr => hn ⟨b.1, b.2, hr⟩

theorem updateVptr_embeds (c : Cls) (σ : Sub) (m : Embeds) : EmbedsClass H (updateVptr H c c σ m) c σ :=
  fun r hr => (updateVptr_spec H c c σ m r).1 hr

/-- The destructor of a mixin does not change the v-table pointers of other subobjects. -/
theorem mixinDtor_other {c : Cls} {σ r : Sub} (h : ¬ RootOf H (c, σ) r) (m : Embeds) : LifeStep.run H m (.mixinDtor c σ) r = m r := by
  simp only [LifeStep.run]
  split
  · next hb =>
    rw [rootOf_leaf (x := (c, σ)) hb] at h
    rw [Function.update_of_ne h]
  · next hb =>
    rw [rootOf_step (x := (c, σ)) hb] at h
    have key : ∀ (l : List (Cls × Bool)) (m : Embeds), (∀ b ∈ l, b ∈ H.bases c) →
        l.foldl (fun m b => updateVptr H b.1 b.1 (baseSub σ b) m) m r = m r := by
      intro l
      induction l with
      | nil => intro m _; rfl
      | cons b l ihl =>
        intro m hl
        rw [List.foldl_cons, ihl _ fun b hb => hl b (by simp [hb])]
        exact (updateVptr_spec H b.1 b.1 (baseSub σ b) m r).2 fun hr => h ⟨b, hl b (by simp), hr⟩
    exact key _ m fun b hb => hb

/-- It sets those of each base. -/
theorem mixinDtor_base {c : Cls} {σ r : Sub} {b : Cls × Bool} (hb : b ∈ H.bases c) (hr : RootOf H (b.1, baseSub σ b) r)
    (hu : ∀ b' ∈ H.bases c, RootOf H (b'.1, baseSub σ b') r → b' = b) (m : Embeds) : LifeStep.run H m (.mixinDtor c σ) r = some b.1 := by
  simp only [LifeStep.run]
  rw [if_neg (by intro e; rw [e] at hb; simp at hb)]
  have key : ∀ (l : List (Cls × Bool)) (m : Embeds), (∀ b ∈ l, b ∈ H.bases c) → (b ∈ l ∨ m r = some b.1) →
      l.foldl (fun m b => updateVptr H b.1 b.1 (baseSub σ b) m) m r = some b.1 := by
    intro l
    induction l with
    | nil => intro m _ h; simpa using h
    | cons b' l ihl =>
      intro m hl h
      rw [List.foldl_cons]
      refine ihl _ (fun b hb => hl b (by simp [hb])) ?_
      by_cases hr' : RootOf H (b'.1, baseSub σ b') r
      · right
        rw [(updateVptr_spec H b'.1 b'.1 (baseSub σ b') m r).1 hr', hu b' (hl b' (by simp)) hr']
      · rcases h with h | h
        · rcases List.mem_cons.1 h with rfl | h
          · exact absurd hr hr'
          · exact .inl h
        · right
          rw [(updateVptr_spec H b'.1 b'.1 (baseSub σ b') m r).2 hr', h]
  exact key _ m (fun b hb => hb) (.inl hb)

/-! ## Sequences of steps -/

/-- All the steps find what is expected. -/
def AllExpected (H : Hierarchy) (m : Embeds) (l : List LifeStep) : Prop := ∀ pre st post, l = pre ++ st :: post → st.Expected H (runLife H m pre)

theorem allExpected_nil (m : Embeds) : AllExpected H m [] := by
  intro pre st post h
  simp at h

theorem allExpected_cons {m : Embeds} {st : LifeStep} {l : List LifeStep} (h : st.Expected H m) (hl : AllExpected H (st.run H m) l) : AllExpected H m (st :: l) := by
  intro pre st' post e
  cases pre with
  | nil =>
    rw [List.nil_append] at e
    rw [← (List.cons.inj e).1]; exact h
  | cons a pre =>
    rw [List.cons_append] at e
    obtain rfl := (List.cons.inj e).1
    exact hl pre st' post (List.cons.inj e).2

theorem allExpected_append {m : Embeds} {l l' : List LifeStep} (h : AllExpected H m l) (h' : AllExpected H (runLife H m l) l') : AllExpected H m (l ++ l') := by
  induction l generalizing m with
  | nil => exact h'
  | cons st l ih =>
    rw [List.cons_append]
    refine allExpected_cons (h [] st l rfl) (ih ?_ h')
    intro pre st' post e
    exact h (st :: pre) st' post (by rw [e]; rfl)

theorem runLife_append (m : Embeds) (l l' : List LifeStep) : runLife H m (l ++ l') = runLife H (runLife H m l) l' := List.foldl_append

theorem allExpected_flatMap {α : Type} (f : α → List LifeStep) (l : List α) : (∀ a ∈ l, ∀ m, AllExpected H m (f a)) → ∀ m, AllExpected H m (l.flatMap f) := by
  induction l with
  | nil => intro _ m; exact allExpected_nil m
  | cons a l ih =>
    intro h m
    rw [List.flatMap_cons]
    exact allExpected_append (h a (by simp) m) (ih (fun b hb => h b (by simp [hb])) _)

/-! ## Construction -/

theorem ctorSteps_expected : ∀ (c : Cls) (σ : Sub) (m : Embeds), AllExpected H m (ctorSteps H c σ) ∧ EmbedsClass H (runLife H m (ctorSteps H c σ)) c σ := by
  intro c
  induction c using Nat.strongRecOn with
  | _ c ih =>
    intro σ m
    rw [ctorSteps]
    constructor
    · refine allExpected_append (allExpected_flatMap _ _ (fun b _ m => (ih b.1.1 (H.lt c b.1 b.2) _ m).1) m) ?_
      exact allExpected_cons trivial (allExpected_cons (updateVptr_embeds c σ _) (allExpected_nil _))
    · rw [runLife_append]
      exact updateVptr_embeds c σ _

/-! ## Order of destruction -/

/-- The subobjects destroyed by `dtorSteps`. -/
def dtorOrder (H : Hierarchy) (c : Cls) (σ : Sub) : List Node :=
  (c, σ) :: ((H.bases c).attach.filter (fun b => !b.1.2)).reverse.flatMap (fun b => dtorOrder H b.1.1 (b.1.1 :: σ))
termination_by c
decreasing_by exact H.lt c b.1 b.2

def dtorOf (x : Node) : List LifeStep := [.dtorBody x.1 x.2, .mixinDtor x.1 x.2]

theorem flatMap_congr_mem {α β : Type} {f g : α → List β} {l : List α} (h : ∀ a ∈ l, f a = g a) : l.flatMap f = l.flatMap g := by
  induction l with
  | nil => rfl
  | cons a l ih => rw [List.flatMap_cons, List.flatMap_cons, h a (by simp), ih fun b hb => h b (by simp [hb])]

theorem dtorSteps_eq : ∀ (c : Cls) (σ : Sub), dtorSteps H c σ = (dtorOrder H c σ).flatMap dtorOf := by
  intro c
  induction c using Nat.strongRecOn with
  | _ c ih =>
    intro σ
    rw [dtorSteps, dtorOrder, List.flatMap_cons, List.flatMap_assoc]
    congr 1
    exact flatMap_congr_mem fun b _ => ih b.1.1 (H.lt c b.1 b.2) _

/-- The subobjects of a subobject that are not in virtual bases. -/
theorem mem_dtorOrder {c : Cls} {σ : Sub} {y : Node} :
    y ∈ dtorOrder H c σ ↔ y = (c, σ) ∨ ∃ b ∈ H.bases c, b.2 = false ∧ y ∈ dtorOrder H b.1 (b.1 :: σ) := by
  rw [dtorOrder]
  simp only [List.mem_cons, List.mem_flatMap, List.mem_reverse, List.mem_filter, List.mem_attach, true_and, Subtype.exists]
  constructor
  · rintro (h | ⟨b, hb, hv, hy⟩)
    · exact .inl h
    · exact .inr ⟨b, hb, by simpa using hv, hy⟩
  · rintro (h | ⟨b, hb, hv, hy⟩)
    · exact .inl h
    · exact .inr ⟨b, hb, by simpa using hv, hy⟩

theorem dtorOrder_below : ∀ (c : Cls) (σ : Sub) (y : Node), y ∈ dtorOrder H c σ → Below H (c, σ) y := by
  intro c
  induction c using Nat.strongRecOn with
  | _ c ih =>
    intro σ y hy
    rcases mem_dtorOrder.1 hy with rfl | ⟨b, hb, hv, hy⟩
    · exact .refl _
    · refine .step b hb ?_
      have := ih b.1 (H.lt c b hb) _ y hy
      unfold baseSub
      rw [hv]; exact this

/-- The paths extend that of the subobject. -/
theorem dtorOrder_suffix : ∀ (c : Cls) (σ : Sub) (y : Node), y ∈ dtorOrder H c σ → y = (c, σ) ∨ ∃ l b, b ∈ H.bases c ∧ b.2 = false ∧ y.2 = l ++ b.1 :: σ := by
  intro c
  induction c using Nat.strongRecOn with
  | _ c ih =>
    intro σ y hy
    rcases mem_dtorOrder.1 hy with rfl | ⟨b, hb, hv, hy⟩
    · exact .inl rfl
    · right
      rcases ih b.1 (H.lt c b hb) _ y hy with rfl | ⟨l, b', _, _, e⟩
      · exact ⟨[], b, hb, hv, rfl⟩
      · exact ⟨l ++ [b'.1], b, hb, hv, by rw [e]; simp⟩

theorem dtorOrder_length {c : Cls} {σ : Sub} {y : Node} (hy : y ∈ dtorOrder H c σ) : ∃ l, y.2 = l ++ σ := by
  rcases dtorOrder_suffix c σ y hy with rfl | ⟨l, b, _, _, e⟩
  · exact ⟨[], rfl⟩
  · exact ⟨l ++ [b.1], by rw [e]; simp⟩

theorem base_eq {c : Cls} {b b' : Cls × Bool} (hb : b ∈ H.bases c) (hb' : b' ∈ H.bases c) (e : b.1 = b'.1) : b = b' :=
  List.inj_on_of_nodup_map (H.nodup c) hb hb' e

theorem suffix_base {l l' : List Cls} {a b : Cls} {σ : Sub} (h : l ++ a :: σ = l' ++ b :: σ) : a = b := by
  have h1 : l ++ [a] ++ σ = l' ++ [b] ++ σ := by simpa using h
  have h2 := List.append_cancel_right h1
  have := congrArg List.getLast? h2
  simpa using this

theorem dtorOrder_nodup : ∀ (c : Cls) (σ : Sub), (dtorOrder H c σ).Nodup := by
  intro c
  induction c using Nat.strongRecOn with
  | _ c ih =>
    intro σ
    rw [dtorOrder, List.nodup_cons]
    constructor
    · intro h
      obtain ⟨b, _, hy⟩ := List.mem_flatMap.1 h
      obtain ⟨l, e⟩ := dtorOrder_length hy
      have := congrArg List.length e
      simp at this
      omega
    · rw [List.nodup_flatMap]
      refine ⟨fun b _ => ih b.1.1 (H.lt c b.1 b.2) _, ?_⟩
      rw [List.pairwise_reverse]
      refine List.Pairwise.filter _ ?_
      have hnd : (H.bases c).attach.Nodup := List.nodup_attach.2 (List.Nodup.of_map _ (H.nodup c))
      refine hnd.imp_of_mem ?_
      intro a b _ _ hab
      simp only [Function.onFun]
      intro y hy hy'
      obtain ⟨l, e⟩ := dtorOrder_length hy
      obtain ⟨l', e'⟩ := dtorOrder_length hy'
      rw [e] at e'
      exact hab (Subtype.ext (base_eq a.2 b.2 (suffix_base e').symm))

/-- A subobject is destroyed after the one that contains it. -/
theorem dtorOrder_parent : ∀ (c : Cls) (σ : Sub) (pre post : List Node) (x : Node) (b : Cls × Bool), dtorOrder H c σ = pre ++ (b.1, b.1 :: x.2) :: post →
    WellNamed (c, σ) → WellNamed x → (b.1, b.1 :: x.2) ≠ (c, σ) → x ∈ pre := by
  intro c
  induction c using Nat.strongRecOn with
  | _ c ih =>
    intro σ pre post x b h hw hx hne
    rw [dtorOrder] at h
    cases pre with
    | nil => rw [List.nil_append] at h; exact absurd (List.cons.inj h).1.symm hne
    | cons a pre =>
      rw [List.cons_append] at h
      obtain ⟨ha, h⟩ := List.cons.inj h
      have key : ∀ (l : List { b // b ∈ H.bases c }) (pre : List Node), l.flatMap (fun b => dtorOrder H b.1.1 (b.1.1 :: σ)) = pre ++ (b.1, b.1 :: x.2) :: post →
          x = (c, σ) ∨ x ∈ pre := by
        intro l
        induction l with
        | nil => intro pre h; simp at h
        | cons d l ihl =>
          intro pre h
          rw [List.flatMap_cons] at h
          rcases List.append_eq_append_iff.1 h with ⟨as, e1, e2⟩ | ⟨bs, e1, e2⟩
          · rcases ihl as e2 with h | h
            · exact .inl h
            · exact .inr (by rw [e1]; simp [h])
          · cases bs with
            | nil =>
              rw [List.append_nil] at e1
              rcases ihl [] (by rw [List.nil_append]; exact e2.symm) with h | h
              · exact .inl h
              · simp at h
            | cons y bs =>
              rw [List.cons_append] at e2
              obtain ⟨e3, _⟩ := List.cons.inj e2
              by_cases hd : (b.1, b.1 :: x.2) = (d.1.1, d.1.1 :: σ)
              · left
                exact hx.ext hw (List.cons.inj (congrArg Prod.snd hd)).2
              · right
                exact ih d.1.1 (H.lt c d.1 d.2) _ pre bs x b (by rw [e1, e3]) ⟨σ, rfl⟩ hx hd
      rcases key _ pre h with h | h
      · rw [h, ← ha]; simp
      · simp [h]

/-! ## Virtual bases -/

theorem addAll_spec (l l' : List Cls) : ∃ t, l'.foldl (fun l v => if v ∈ l then l else l ++ [v]) l = l ++ t ∧
    (∀ v, v ∈ l ++ t ↔ v ∈ l ∨ v ∈ l') := by
  induction l' generalizing l with
  | nil => exact ⟨[], by simp, by simp⟩
  | cons v l' ih =>
    rw [List.foldl_cons]
    by_cases hv : v ∈ l
    · rw [if_pos hv]
      obtain ⟨t, e, h⟩ := ih l
      refine ⟨t, e, fun w => ?_⟩
      rw [h w]
      constructor
      · rintro (h | h) <;> simp [h]
      · rintro (h | h)
        · exact .inl h
        · rcases List.mem_cons.1 h with rfl | h
          · exact .inl hv
          · exact .inr h
    · rw [if_neg hv]
      obtain ⟨t, e, h⟩ := ih (l ++ [v])
      refine ⟨v :: t, by rw [e]; simp, fun w => ?_⟩
      have := h w
      simp only [List.append_assoc, List.singleton_append] at this
      rw [this]
      simp only [List.mem_append, List.mem_cons, List.not_mem_nil, or_false]
      tauto

/-- Every class in the list comes after its own virtual bases, and only once. -/
def VbOrdered (H : Hierarchy) (l : List Cls) : Prop :=
  l.Nodup ∧ ∀ pre w post, l = pre ++ w :: post → ∀ v ∈ virtualBases H w, v ∈ pre

theorem VbOrdered.snoc {l : List Cls} (h : VbOrdered H l) {w : Cls} (hw : w ∉ l) (hv : ∀ v ∈ virtualBases H w, v ∈ l) : VbOrdered H (l ++ [w]) := by
  refine ⟨?_, ?_⟩
  · rw [List.nodup_append]
    refine ⟨h.1, by simp, ?_⟩
    intro a ha b hb e
    rw [List.mem_singleton] at hb
    exact hw (hb ▸ e ▸ ha)
  · intro pre w' post e v hv'
    rcases List.eq_nil_or_concat post with rfl | ⟨post, z, rfl⟩
    · have := List.append_inj' e rfl
      rw [← this.1]
      exact hv v ((List.cons.inj this.2).1 ▸ hv')
    · have e' : l ++ [w] = (pre ++ w' :: post) ++ [z] := by rw [e]; simp
      exact h.2 pre w' post (List.append_inj' e' rfl).1 v hv'

theorem VbOrdered.addAll {l' : List Cls} (h' : VbOrdered H l') : ∀ (l : List Cls), VbOrdered H l → VbOrdered H (l'.foldl (fun l v => if v ∈ l then l else l ++ [v]) l) := by
  have key : ∀ (q p : List Cls), l' = p ++ q → ∀ l, VbOrdered H l → (∀ v ∈ p, v ∈ l) → VbOrdered H (q.foldl (fun l v => if v ∈ l then l else l ++ [v]) l) := by
    intro q
    induction q with
    | nil => intro p _ l h _; exact h
    | cons v q ih =>
      intro p e l h hp
      rw [List.foldl_cons]
      refine ih (p ++ [v]) (by rw [e]; simp) _ ?_ ?_
      · split
        · exact h
        · next hv => exact h.snoc hv fun u hu => hp u (h'.2 p v q e u hu)
      · intro u hu
        rcases List.mem_append.1 hu with hu | hu
        · split
          · exact hp u hu
          · simp [hp u hu]
        · rw [List.mem_singleton] at hu
          subst hu
          split
          · assumption
          · simp
  intro l h
  exact key l' [] rfl l h (by simp)

theorem virtualBases_spec : ∀ c, VbOrdered H (virtualBases H c) ∧
    ∀ v, v ∈ virtualBases H c ↔ ∃ b ∈ H.bases c, v ∈ virtualBases H b.1 ∨ (b.2 = true ∧ v = b.1) := by
  intro c
  induction c using Nat.strongRecOn with
  | _ c ih =>
    rw [virtualBases]
    have key : ∀ (l : List { b // b ∈ H.bases c }) (a : List Cls), VbOrdered H a →
        VbOrdered H (l.foldl (fun l b =>
          let l := (virtualBases H b.1.1).foldl (fun l v => if v ∈ l then l else l ++ [v]) l
          if b.1.2 && !(b.1.1 ∈ l) then l ++ [b.1.1] else l) a) ∧
        ∀ v, v ∈ l.foldl (fun l b =>
          let l := (virtualBases H b.1.1).foldl (fun l v => if v ∈ l then l else l ++ [v]) l
          if b.1.2 && !(b.1.1 ∈ l) then l ++ [b.1.1] else l) a ↔ v ∈ a ∨ ∃ b ∈ l, v ∈ virtualBases H b.1.1 ∨ (b.1.2 = true ∧ v = b.1.1) := by
      intro l
      induction l with
      | nil => intro a ha; exact ⟨ha, by simp⟩
      | cons b l ihl =>
        intro a ha
        simp only [List.foldl_cons]
        obtain ⟨hb, hbm⟩ := ih b.1.1 (H.lt c b.1 b.2)
        have h1 := hb.addAll a ha
        obtain ⟨t, e, hm⟩ := addAll_spec a (virtualBases H b.1.1)
        rw [e] at h1
        rw [e]
        by_cases hc : (b.1.2 && !decide (b.1.1 ∈ a ++ t)) = true
        · rw [if_pos hc]
          simp only [Bool.and_eq_true, Bool.not_eq_true', decide_eq_false_iff_not] at hc
          obtain ⟨i1, i2⟩ := ihl (a ++ t ++ [b.1.1]) (h1.snoc hc.2 fun v hv => (hm v).2 (.inr hv))
          refine ⟨i1, fun v => ?_⟩
          rw [i2 v, List.mem_append, hm v, List.mem_singleton]
          constructor
          · rintro (((h | h) | h) | ⟨b', hb', h⟩)
            · exact .inl h
            · exact .inr ⟨b, by simp, .inl h⟩
            · exact .inr ⟨b, by simp, .inr ⟨hc.1, h⟩⟩
            · exact .inr ⟨b', by simp [hb'], h⟩
          · rintro (h | ⟨b', hb', h⟩)
            · exact .inl (.inl (.inl h))
            · rcases List.mem_cons.1 hb' with rfl | hb'
              · rcases h with h | h
                · exact .inl (.inl (.inr h))
                · exact .inl (.inr h.2)
              · exact .inr ⟨b', hb', h⟩
        · rw [if_neg hc]
          simp only [Bool.and_eq_true, Bool.not_eq_true', decide_eq_false_iff_not, not_and, not_not] at hc
          obtain ⟨i1, i2⟩ := ihl (a ++ t) h1
          refine ⟨i1, fun v => ?_⟩
          rw [i2 v, hm v]
          constructor
          · rintro ((h | h) | ⟨b', hb', h⟩)
            · exact .inl h
            · exact .inr ⟨b, by simp, .inl h⟩
            · exact .inr ⟨b', by simp [hb'], h⟩
          · rintro (h | ⟨b', hb', h⟩)
            · exact .inl (.inl h)
            · rcases List.mem_cons.1 hb' with rfl | hb'
              · rcases h with h | h
                · exact .inl (.inr h)
                · exact .inl ((hm v).1 (h.2 ▸ hc h.1))
              · exact .inr ⟨b', hb', h⟩
    obtain ⟨h1, h2⟩ := key (H.bases c).attach [] ⟨List.nodup_nil, by simp⟩
    refine ⟨h1, fun v => ?_⟩
    rw [h2 v]
    constructor
    · rintro (h | ⟨b, _, h⟩)
      · simp at h
      · exact ⟨b.1, b.2, h⟩
    · rintro ⟨b, hb, h⟩
      exact .inr ⟨⟨b, hb⟩, List.mem_attach _ _, h⟩

theorem virtualBases_below : ∀ (c : Cls) (σ : Sub) (v : Cls), v ∈ virtualBases H c → Below H (c, σ) (v, [v]) ∧ v < c := by
  intro c
  induction c using Nat.strongRecOn with
  | _ c ih =>
    intro σ v hv
    obtain ⟨b, hb, h | ⟨h, rfl⟩⟩ := ((virtualBases_spec c).2 v).1 hv
    · obtain ⟨i1, i2⟩ := ih b.1 (H.lt c b hb) (baseSub σ b) v h
      exact ⟨.step b hb i1, Nat.lt_trans i2 (H.lt c b hb)⟩
    · refine ⟨.step b hb ?_, H.lt c b hb⟩
      simp only [baseSub, h, if_true]
      exact .refl _

theorem dtorOrder_virtualBases : ∀ (c : Cls) (σ : Sub) (y : Node), y ∈ dtorOrder H c σ → ∀ v ∈ virtualBases H y.1, v ∈ virtualBases H c := by
  intro c
  induction c using Nat.strongRecOn with
  | _ c ih =>
    intro σ y hy v hv
    rcases mem_dtorOrder.1 hy with rfl | ⟨b, hb, _, hy⟩
    · exact hv
    · exact ((virtualBases_spec c).2 v).2 ⟨b, hb, .inl (ih b.1 (H.lt c b hb) _ y hy v hv)⟩

/-- Every subobject is either outside of the virtual bases or in one. -/
theorem Below.part : ∀ (c : Cls) (σ : Sub) (y : Node), Below H (c, σ) y → y ∈ dtorOrder H c σ ∨ ∃ w ∈ virtualBases H c, y ∈ dtorOrder H w [w] := by
  intro c
  induction c using Nat.strongRecOn with
  | _ c ih =>
    intro σ y hy
    rcases hy.cases with rfl | ⟨b, hb, hy⟩
    · exact .inl (mem_dtorOrder.2 (.inl rfl))
    · have hi := ih b.1 (H.lt c b hb) _ y hy
      cases hv : b.2 with
      | false =>
        simp only [baseSub, hv] at hi
        rcases hi with h | ⟨w, hw, h⟩
        · exact .inl (mem_dtorOrder.2 (.inr ⟨b, hb, hv, h⟩))
        · exact .inr ⟨w, ((virtualBases_spec c).2 w).2 ⟨b, hb, .inl hw⟩, h⟩
      | true =>
        simp only [baseSub, hv, if_true] at hi
        rcases hi with h | ⟨w, hw, h⟩
        · exact .inr ⟨b.1, ((virtualBases_spec c).2 _).2 ⟨b, hb, .inr ⟨hv, rfl⟩⟩, h⟩
        · exact .inr ⟨w, ((virtualBases_spec c).2 w).2 ⟨b, hb, .inl hw⟩, h⟩

/-! ## Destruction -/

/-- All the subobjects, in the order of their destruction. -/
def destroyed (H : Hierarchy) (c : Cls) : List Node := dtorOrder H c [c] ++ (virtualBases H c).reverse.flatMap (fun v => dtorOrder H v [v])

theorem destroyed_steps (c : Cls) :
    dtorSteps H c [c] ++ (virtualBases H c).reverse.flatMap (fun v => dtorSteps H v [v]) = (destroyed H c).flatMap dtorOf := by
  rw [destroyed, List.flatMap_append, dtorSteps_eq, List.flatMap_assoc]
  congr 1
  exact flatMap_congr_mem fun v _ => dtorSteps_eq v [v]

theorem destroyed_below {c : Cls} {y : Node} (hy : y ∈ destroyed H c) : Below H (c, [c]) y := by
  rcases List.mem_append.1 hy with h | h
  · exact dtorOrder_below c _ y h
  · obtain ⟨v, hv, h⟩ := List.mem_flatMap.1 h
    exact (virtualBases_below c [c] v (List.mem_reverse.1 hv)).1.trans (dtorOrder_below v _ y h)

theorem below_destroyed {c : Cls} {y : Node} (hy : Below H (c, [c]) y) : y ∈ destroyed H c := by
  rcases Below.part c [c] y hy with h | ⟨w, hw, h⟩
  · exact List.mem_append.2 (.inl h)
  · exact List.mem_append.2 (.inr (List.mem_flatMap.2 ⟨w, List.mem_reverse.2 hw, h⟩))

theorem dtorOrder_disjoint {c d : Cls} (h : c ≠ d) : List.Disjoint (dtorOrder H c [c]) (dtorOrder H d [d]) := by
  intro y hy hy'
  obtain ⟨l, e⟩ := dtorOrder_length hy
  obtain ⟨l', e'⟩ := dtorOrder_length hy'
  rw [e] at e'
  exact h (suffix_base e')

theorem destroyed_nodup (c : Cls) : (destroyed H c).Nodup := by
  rw [destroyed, List.nodup_append]
  refine ⟨dtorOrder_nodup c _, ?_, ?_⟩
  · rw [List.nodup_flatMap]
    refine ⟨fun v _ => dtorOrder_nodup v _, ?_⟩
    refine List.Pairwise.imp ?_ (List.nodup_reverse.2 (virtualBases_spec c).1.1)
    intro a b hab
    exact dtorOrder_disjoint hab
  · intro a ha b hb e
    subst e
    obtain ⟨v, hv, h⟩ := List.mem_flatMap.1 hb
    exact dtorOrder_disjoint (Nat.ne_of_gt (virtualBases_below c [c] v (List.mem_reverse.1 hv)).2) ha h

theorem flatMap_split {α β : Type} (f : α → List β) : ∀ (l : List α) (pre : List β) (y : β) (post : List β), l.flatMap f = pre ++ y :: post →
    ∃ l1 a l2 p q, l = l1 ++ a :: l2 ∧ f a = p ++ y :: q ∧ pre = l1.flatMap f ++ p := by
  intro l
  induction l with
  | nil => intro pre y post h; simp at h
  | cons d l ih =>
    intro pre y post h
    rw [List.flatMap_cons] at h
    rcases List.append_eq_append_iff.1 h with ⟨as, e1, e2⟩ | ⟨bs, e1, e2⟩
    · obtain ⟨l1, a, l2, p, q, h1, h2, h3⟩ := ih as y post e2
      exact ⟨d :: l1, a, l2, p, q, by rw [h1]; rfl, h2, by rw [e1, h3, List.flatMap_cons, List.append_assoc]⟩
    · cases bs with
      | nil =>
        obtain ⟨l1, a, l2, p, q, h1, h2, h3⟩ := ih [] y post e2.symm
        refine ⟨d :: l1, a, l2, p, q, by rw [h1]; rfl, h2, ?_⟩
        rw [List.append_nil] at e1
        rw [List.flatMap_cons, List.append_assoc, ← h3, List.append_nil, e1]
      | cons z bs =>
        rw [List.cons_append] at e2
        obtain ⟨e3, _⟩ := List.cons.inj e2
        exact ⟨[], d, l, pre, bs, rfl, by rw [e1, e3], rfl⟩

/-- A subobject is destroyed after those of which it is a base. -/
theorem destroyed_parent {c : Cls} {pre post : List Node} {x : Node} {b : Cls × Bool} (hx : Below H (c, [c]) x) (hb : b ∈ H.bases x.1)
    (h : destroyed H c = pre ++ (b.1, baseSub x.2 b) :: post) : x ∈ pre := by
  have hwx : WellNamed x := hx.wellNamed ⟨[], rfl⟩
  have hblt : b.1 < c := Nat.lt_of_lt_of_le (H.lt _ b hb) hx.le
  rw [destroyed] at h
  have hall : destroyed H c = (c :: (virtualBases H c).reverse).flatMap (fun v => dtorOrder H v [v]) := by rw [List.flatMap_cons]; rfl
  obtain ⟨l1, w, l2, p, q, h1, h2, h3⟩ := flatMap_split (fun v => dtorOrder H v [v]) (c :: (virtualBases H c).reverse) pre _ post (by rw [← hall]; exact h)
  cases hv : b.2 with
  | false =>
    simp only [baseSub, hv] at h2
    rw [h3]
    refine List.mem_append.2 (.inr (dtorOrder_parent w [w] p q x b h2 ⟨[], rfl⟩ hwx ?_))
    intro e
    obtain ⟨l, e'⟩ := hwx
    have := congrArg (fun z : Node => z.2) e
    simp [e'] at this
  | true =>
    simp only [baseSub, hv, if_true] at h2
    have hwb : w = b.1 := by
      have hm : (b.1, [b.1]) ∈ dtorOrder H w [w] := by rw [h2]; simp
      obtain ⟨l, e⟩ := dtorOrder_length hm
      have := congrArg List.getLast? e
      simpa using this.symm
    subst hwb
    have hbv : b.1 ∈ virtualBases H x.1 := ((virtualBases_spec x.1).2 _).2 ⟨b, hb, .inr ⟨hv, rfl⟩⟩
    have goal : ∀ w', x ∈ dtorOrder H w' [w'] → w' ∈ l1 → x ∈ pre := by
      intro w' hxw hw'
      rw [h3]
      exact List.mem_append.2 (.inl (List.mem_flatMap.2 ⟨w', hw', hxw⟩))
    cases l1 with
    | nil =>
      rw [List.nil_append] at h1
      exact absurd (List.cons.inj h1).1 (Nat.ne_of_gt hblt)
    | cons d l1 =>
      rw [List.cons_append] at h1
      obtain ⟨hd, h1⟩ := List.cons.inj h1
      rcases Below.part c [c] x hx with hxc | ⟨w', hw', hxw⟩
      · exact goal c hxc (by rw [← hd]; simp)
      · refine goal w' hxw ?_
        have hb' : b.1 ∈ virtualBases H w' := dtorOrder_virtualBases w' _ x hxw _ hbv
        obtain ⟨hnd, hord⟩ := (virtualBases_spec (H := H) c).1
        have hvb : virtualBases H c = l2.reverse ++ b.1 :: l1.reverse := by
          have := congrArg List.reverse h1
          simpa using this
        have hw'' := hw'
        rw [hvb] at hw''
        rcases List.mem_append.1 hw'' with hl | hl
        · exfalso
          obtain ⟨s, t, e⟩ := List.append_of_mem hl
          have hbs := hord s w' (t ++ b.1 :: l1.reverse) (by rw [hvb, e]; simp) b.1 hb'
          rw [hvb, e] at hnd
          have hdis := (List.nodup_append.1 hnd).2.2 b.1 (by simp [hbs]) b.1 (by simp)
          exact hdis rfl
        · rcases List.mem_cons.1 hl with e | hl
          · exact absurd (virtualBases_below w' [w'] b.1 hb').2 (by rw [e]; exact Nat.lt_irrefl _)
          · simp [List.mem_reverse.1 hl]

theorem destroyed_above {c : Cls} {x y : Node} (hxy : Below H x y) : ∀ {pre post : List Node}, Below H (c, [c]) x → x ≠ y → destroyed H c = pre ++ y :: post → x ∈ pre := by
  induction hxy with
  | refl => intro _ _ _ h; exact absurd rfl h
  | @step x y b hb hby ih =>
    intro pre post hx hne h
    by_cases e : (b.1, baseSub x.2 b) = y
    · exact destroyed_parent hx hb (by rw [e]; exact h)
    · have hm := ih (hx.trans (.step b hb (.refl _))) e h
      obtain ⟨s, t, e'⟩ := List.append_of_mem hm
      rw [e']
      exact List.mem_append.2 (.inl (destroyed_parent (post := t ++ y :: post) hx hb (by rw [h, e']; simp)))

/-- Without sharing, the subobjects that contain a given v-table pointer are nested. -/
theorem Unshared.nested {D : Cls} (hu : Unshared H D) : ∀ (c : Cls) (σ : Sub), Below H (D, [D]) (c, σ) → ∀ x y r, Below H (c, σ) x → Below H (c, σ) y → RootOf H x r →
    RootOf H y r → Below H x y ∨ Below H y x := by
  intro c
  induction c using Nat.strongRecOn with
  | _ c ih =>
    intro σ hc x y r hx hy hrx hry
    rcases hx.cases with rfl | ⟨b, hb, hx'⟩
    · exact .inl hy
    · rcases hy.cases with rfl | ⟨b', hb', hy'⟩
      · exact .inr hx
      · have := hu (c, σ) hc b hb b' hb' r (hrx.above hx') (hry.above hy')
        subst this
        exact ih b.1 (H.lt c b hb) _ (hc.trans (.step b hb (.refl _))) x y r hx' hy' hrx hry

/-- While an object is destroyed: the outermost subobjects that still exist. -/
def DtorInv (H : Hierarchy) (D : Cls) (pre : List Node) (m : Embeds) : Prop :=
  ∀ s, Below H (D, [D]) s → s ∉ pre → (∀ t, Below H (D, [D]) t → Below H t s → t ≠ s → t ∈ pre) → EmbedsClass H m s.1 s.2

theorem DtorInv.step {D : Cls} (hu : Unshared H D) {pre post : List Node} {k : Node} (h : destroyed H D = pre ++ k :: post) {m : Embeds} (hm : DtorInv H D pre m) :
    EmbedsClass H m k.1 k.2 ∧ DtorInv H D (pre ++ [k]) (LifeStep.run H m (.mixinDtor k.1 k.2)) := by
  have hnd := destroyed_nodup (H := H) D
  have hk : Below H (D, [D]) k := destroyed_below (by rw [h]; simp)
  have hkpre : k ∉ pre := by
    intro hk'
    rw [h] at hnd
    exact (List.nodup_append.1 hnd).2.2 k hk' k (by simp) rfl
  refine ⟨hm k hk hkpre fun t ht htk hne => destroyed_above htk ht hne h, ?_⟩
  intro s hs hspre hanc r hr
  have hs1 : s ∉ pre := fun h => hspre (by simp [h])
  have hsk : k ≠ s := fun h => hspre (by simp [h])
  by_cases hks : Below H k s
  · rcases hks.cases with e | ⟨b, hb, hbs⟩
    · exact absurd e hsk
    · have hkb : Below H k (b.1, baseSub k.2 b) := .step b hb (.refl _)
      have hsb : (b.1, baseSub k.2 b) = s := by
        by_contra hne
        have hmem := hanc _ (hk.trans hkb) hbs hne
        rcases List.mem_append.1 hmem with h1 | h1
        · obtain ⟨p, q, e⟩ := List.append_of_mem h1
          have := destroyed_parent (pre := p) (post := q ++ k :: post) hk hb (by rw [h, e]; simp)
          exact hkpre (by rw [e]; simp [this])
        · rw [List.mem_singleton] at h1
          have hlt : b.1 < k.1 := H.lt _ b hb
          rw [← congrArg Prod.fst h1] at hlt
          exact Nat.lt_irrefl _ hlt
      subst hsb
      exact mixinDtor_base hb hr (fun b' hb' hr' => hu k hk b' hb' b hb r hr' hr) m
  · have hnr : ¬ RootOf H k r := by
      intro hkr
      rcases hu.nested D [D] (.refl _) s k r hs hk hr hkr with h1 | h1
      · exact hs1 (destroyed_above h1 hs (fun e => hsk e.symm) h)
      · exact hks h1
    rw [mixinDtor_other (c := k.1) (σ := k.2) hnr m]
    refine hm s hs hs1 (fun t ht hts hne => ?_) r hr
    rcases List.mem_append.1 (hanc t ht hts hne) with h1 | h1
    · exact h1
    · rw [List.mem_singleton] at h1
      exact absurd (h1 ▸ hts) hks

theorem destroyed_expected {D : Cls} (hu : Unshared H D) {m : Embeds} (hm : EmbedsClass H m D [D]) : AllExpected H m ((destroyed H D).flatMap dtorOf) := by
  have key : ∀ (post pre : List Node) (m : Embeds), destroyed H D = pre ++ post → DtorInv H D pre m → AllExpected H m (post.flatMap dtorOf) := by
    intro post
    induction post with
    | nil => intro _ m _ _; exact allExpected_nil m
    | cons k post ih =>
      intro pre m h hi
      obtain ⟨h1, h2⟩ := hi.step hu h
      rw [List.flatMap_cons]
      exact allExpected_append (allExpected_cons h1 (allExpected_cons trivial (allExpected_nil _))) (ih (pre ++ [k]) _ (by rw [h]; simp) h2)
  refine key _ [] m rfl ?_
  intro s hs _ hanc
  by_cases e : (D, [D]) = s
  · subst e; exact hm
  · exact absurd (hanc (D, [D]) (.refl _) hs e) (by simp)

/-! ## Hierarchies without virtual bases -/

theorem nonVirtual_path (hnv : ∀ c, ∀ b ∈ H.bases c, b.2 = false) {x y : Node} (h : Below H x y) : ∃ l, y.2 = l ++ x.2 := by
  induction h with
  | refl => exact ⟨[], rfl⟩
  | @step x y b hb _ ih =>
    obtain ⟨l, e⟩ := ih
    simp only [baseSub, hnv _ b hb] at e
    exact ⟨l ++ [b.1], by rw [e]; simp⟩

theorem unshared_of_nonVirtual (hnv : ∀ c, ∀ b ∈ H.bases c, b.2 = false) (D : Cls) : Unshared H D := by
  rintro x _ b hb b' hb' r ⟨a, h, _⟩ ⟨a', h', _⟩
  obtain ⟨l, e⟩ := nonVirtual_path hnv h
  obtain ⟨l', e'⟩ := nonVirtual_path hnv h'
  simp only [baseSub, hnv _ b hb] at e
  simp only [baseSub, hnv _ b' hb'] at e'
  exact base_eq hb hb' (suffix_base (e.symm.trans e'))

/-- Or where every class has at most one base. -/
theorem unshared_of_single (hs : ∀ c, (H.bases c).length ≤ 1) (D : Cls) : Unshared H D := by
  rintro x _ b hb b' hb' r _ _
  have := hs x.1
  match hl : H.bases x.1 with
  | [] => rw [hl] at hb; simp at hb
  | [a] =>
    rw [hl, List.mem_singleton] at hb hb'
    rw [hb, hb']
  | a :: a' :: l => rw [hl] at this; simp at this

/-! ## Reading -/

theorem vptrRoot_rootOf : ∀ (c : Cls) (σ : Sub), RootOf H (c, σ) (vptrRoot H c σ) := by
  intro c
  induction c using Nat.strongRecOn with
  | _ c ih =>
    intro σ
    rw [vptrRoot]
    split
    · next h =>
      exact ⟨c, .refl _, by simpa using h⟩
    · next b l h =>
      exact RootOf.above (.step b.1 b.2 (.refl _)) (ih b.1.1 (H.lt c b.1 b.2) _)

end OpenMethod
