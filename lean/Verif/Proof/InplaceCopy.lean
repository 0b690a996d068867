import Verif.SpecInplaceCopy
import Verif.Proof.Inplace
import Mathlib.Data.List.Induction

/-! # Lemmas about copies of objects that embed their v-table pointers -/

namespace OpenMethod

variable {H : Hierarchy} {K : Copying} {src : Embeds} {D c : Cls} {τ : Sub}

/-! ## The order of the copies -/

/-- The subobjects of a subobject that are not in virtual bases, in the order of their construction, with the subobjects they are copied from. -/
def copyOrder (H : Hierarchy) (c : Cls) (σ τ : Sub) : List (Node × Sub) :=
  ((H.bases c).attach.filter (fun b => !b.1.2)).flatMap (fun b => copyOrder H b.1.1 (b.1.1 :: σ) (b.1.1 :: τ)) ++ [((c, σ), τ)]
termination_by c
decreasing_by exact H.lt c b.1 b.2

def copyOf (x : Node × Sub) : List CopyStep := [.mixin x.1.1 x.1.2 x.2, .body x.1.1 x.1.2]

theorem copySteps_eq : ∀ (c : Cls) (σ τ : Sub), copySteps H c σ τ = (copyOrder H c σ τ).flatMap copyOf := by
  intro c
  induction c using Nat.strongRecOn with
  | _ c ih =>
    intro σ τ
    rw [copySteps, copyOrder, List.flatMap_append, List.flatMap_assoc]
    congr 1
    exact flatMap_congr_mem fun b _ => ih b.1.1 (H.lt c b.1 b.2) _ _

theorem copyOrder_fst : ∀ (c : Cls) (σ τ : Sub), (copyOrder H c σ τ).map (·.1) = (dtorOrder H c σ).reverse := by
  intro c
  induction c using Nat.strongRecOn with
  | _ c ih =>
    intro σ τ
    rw [copyOrder, dtorOrder, List.map_append, List.reverse_cons, List.map_flatMap, List.reverse_flatMap, List.reverse_reverse]
    congr 1
    exact flatMap_congr_mem fun b _ => ih b.1.1 (H.lt c b.1 b.2) _ _

theorem copyOrder_src : ∀ (c : Cls) (σ τ : Sub) (x : Node × Sub), x ∈ copyOrder H c σ τ → Below H (c, τ) (x.1.1, x.2) := by
  intro c
  induction c using Nat.strongRecOn with
  | _ c ih =>
    intro σ τ x hx
    rw [copyOrder, List.mem_append, List.mem_flatMap, List.mem_singleton] at hx
    rcases hx with ⟨b, hb, hx⟩ | rfl
    · have hv : b.1.2 = false := by simpa using (List.mem_filter.1 hb).2
      refine .step b.1 b.2 ?_
      have := ih b.1.1 (H.lt c b.1 b.2) _ _ x hx
      rwa [baseSub, if_neg (by rw [hv]; decide)]
    · exact .refl _

/-- All the subobjects of a copy, in the order of their construction. -/
def copied (H : Hierarchy) (c : Cls) (τ : Sub) : List (Node × Sub) :=
  (virtualBases H c).flatMap (fun v => copyOrder H v [v] [v]) ++ copyOrder H c [c] τ

theorem copyLife_eq (c : Cls) (τ : Sub) : copyLife H c τ = (copied H c τ).flatMap copyOf ++ [.alive c [c]] := by
  rw [copyLife, copied, List.flatMap_append, List.flatMap_assoc, copySteps_eq]
  congr 2
  exact flatMap_congr_mem fun v _ => copySteps_eq v _ _

theorem copied_fst (c : Cls) (τ : Sub) : (copied H c τ).map (·.1) = (destroyed H c).reverse := by
  rw [copied, destroyed, List.map_append, List.reverse_append, List.map_flatMap, List.reverse_flatMap, List.reverse_reverse, copyOrder_fst]
  congr 1
  exact flatMap_congr_mem fun v _ => copyOrder_fst v _ _

theorem copied_src {x : Node × Sub} (hx : x ∈ copied H c τ) : Below H (c, τ) (x.1.1, x.2) := by
  rcases List.mem_append.1 hx with h | h
  · obtain ⟨v, hv, h⟩ := List.mem_flatMap.1 h
    exact (virtualBases_below c τ v hv).1.trans (copyOrder_src v _ _ x h)
  · exact copyOrder_src c _ _ x h

theorem copied_below {x : Node × Sub} (hx : x ∈ copied H c τ) : Below H (c, [c]) x.1 := by
  have : x.1 ∈ (copied H c τ).map (·.1) := List.mem_map_of_mem hx
  rw [copied_fst] at this
  exact destroyed_below (List.mem_reverse.1 this)

theorem below_copied {y : Node} (hy : Below H (c, [c]) y) : ∃ x ∈ copied H c τ, x.1 = y := by
  have : y ∈ (copied H c τ).map (·.1) := by rw [copied_fst]; exact List.mem_reverse.2 (below_destroyed hy)
  exact List.mem_map.1 this

theorem copied_last (c : Cls) (τ : Sub) : ∃ p, copied H c τ = p ++ [((c, [c]), τ)] := by
  rw [copied, copyOrder, ← List.append_assoc]
  exact ⟨_, rfl⟩

theorem copied_split {p q : List (Node × Sub)} {x : Node × Sub} (h : copied H c τ = p ++ x :: q) :
    destroyed H c = (q.map (·.1)).reverse ++ x.1 :: (p.map (·.1)).reverse := by
  have := copied_fst (H := H) c τ
  rw [h] at this
  have := congrArg List.reverse this
  rw [List.reverse_reverse] at this
  rw [← this]; simp

/-- A subobject is constructed before those that contain it. -/
theorem copied_above {p q : List (Node × Sub)} {x : Node × Sub} (h : copied H c τ = p ++ x :: q) {y : Node} (hy : Below H (c, [c]) y) (hyx : Below H y x.1) (hne : y ≠ x.1) :
    y ∉ p.map (·.1) := by
  intro hp
  have hs := copied_split h
  have h1 := destroyed_above hyx hy hne hs
  have hnd := destroyed_nodup (H := H) c
  rw [hs, List.nodup_append] at hnd
  exact hnd.2.2 _ h1 _ (List.mem_cons.2 (.inr (List.mem_reverse.2 hp))) rfl

/-- A subobject is constructed after those that it contains. -/
theorem copied_inside {p q : List (Node × Sub)} {x : Node × Sub} (h : copied H c τ = p ++ x :: q) {y : Node} (hxy : Below H x.1 y) : y ∈ (p ++ [x]).map (·.1) := by
  have hx : Below H (c, [c]) x.1 := copied_below (by rw [h]; simp)
  obtain ⟨z, hz, rfl⟩ := below_copied (τ := τ) (hx.trans hxy)
  by_cases e : x.1 = z.1
  · simp [e]
  · obtain ⟨p', q', h'⟩ := List.append_of_mem hz
    have hs := copied_split h'
    have hnot := copied_above h' hx hxy e
    have hxm : x ∈ p' ++ z :: q' := by rw [← h', h]; simp
    -- `x` comes after `z`
    have hxq : x ∈ q' := by
      rcases List.mem_append.1 hxm with hm | hm
      · exact absurd (List.mem_map_of_mem hm) hnot
      · rcases List.mem_cons.1 hm with rfl | hm
        · exact absurd rfl e
        · exact hm
    have hnd : ((copied H c τ).map (·.1)).Nodup := by rw [copied_fst]; exact List.nodup_reverse.2 (destroyed_nodup c)
    rcases List.mem_append.1 (show z ∈ p ++ x :: q by rw [← h]; exact hz) with hm | hm
    · simp only [List.map_append, List.mem_append]
      exact .inl (List.mem_map_of_mem hm)
    · rcases List.mem_cons.1 hm with rfl | hm
      · exact absurd rfl e
      · exfalso
        obtain ⟨q1, q2, rfl⟩ := List.append_of_mem hm
        obtain ⟨r1, r2, rfl⟩ := List.append_of_mem hxq
        have hx2 : x ∈ p ++ x :: q1 := by simp
        have h2 : copied H c τ = (p ++ x :: q1) ++ z :: q2 := by rw [h]; simp
        exact copied_above h2 hx hxy e (List.mem_map_of_mem hx2)

/-! ## What the copies store -/

def CopyStep.runNode (H : Hierarchy) (K : Copying) (src : Embeds) (m : Embeds) (x : Node × Sub) : Embeds := CopyStep.run H K src m (.mixin x.1.1 x.1.2 x.2)

theorem runCopy_nodes (m : Embeds) (l : List (Node × Sub)) : runCopy H K src m (l.flatMap copyOf) = l.foldl (CopyStep.runNode H K src) m := by
  induction l generalizing m with
  | nil => rfl
  | cons x l ih =>
    rw [List.flatMap_cons, List.foldl_cons, ← ih]
    rfl

theorem runNode_eq (m : Embeds) (x : Node × Sub) : CopyStep.runNode H K src m x =
    if K.fresh x.1.1 then updateVptr H x.1.1 x.1.1 x.1.2 m else if H.bases x.1.1 = [] then Function.update m x.1.2 (src x.2) else m := rfl

/-- The v-table pointers of the subobjects constructed so far are copies, or were set by a default constructor. -/
theorem copied_values (hs : CopySource H src D c τ) (m : Embeds) : ∀ (p q : List (Node × Sub)), copied H c τ = p ++ q → ∀ z ∈ p, H.bases z.1.1 = [] →
    ∃ d, p.foldl (CopyStep.runNode H K src) m z.1.2 = some d ∧ (d = D ∨ ∃ y ∈ p, K.fresh y.1.1 = true ∧ d = y.1.1) := by
  intro p
  induction p using List.reverseRecOn with
  | nil => intro q _ z hz; simp at hz
  | append_singleton p x ih =>
    intro q h z hz hb
    have h' : copied H c τ = p ++ x :: q := by rw [h]; simp
    have hxm : x ∈ copied H c τ := by rw [h']; simp
    have hzm : z ∈ copied H c τ := by rw [h]; exact List.mem_append.2 (.inl hz)
    rw [List.foldl_append, List.foldl_cons, List.foldl_nil]
    generalize hm' : p.foldl (CopyStep.runNode H K src) m = m'
    have old : z ∈ p → ∃ d, m' z.1.2 = some d ∧ (d = D ∨ ∃ y ∈ p ++ [x], K.fresh y.1.1 = true ∧ d = y.1.1) := by
      intro hz
      obtain ⟨d, h1, h2⟩ := ih (x :: q) h' z hz hb
      rw [hm'] at h1
      refine ⟨d, h1, h2.imp_right ?_⟩
      rintro ⟨y, hy, h⟩
      exact ⟨y, List.mem_append.2 (.inl hy), h⟩
    rw [runNode_eq]
    split
    · next hf =>
      by_cases hr : RootOf H x.1 z.1.2
      · exact ⟨x.1.1, (updateVptr_spec H _ _ _ _ _).1 hr, .inr ⟨x, by simp, hf, rfl⟩⟩
      · rw [(updateVptr_spec H _ _ _ _ _).2 hr]
        rcases List.mem_append.1 hz with hz | hz
        · exact old hz
        · rw [List.mem_singleton] at hz
          subst hz
          exact absurd ((rootOf_leaf hb _).2 rfl) hr
    · split
      · next hxb =>
        by_cases e : z.1.2 = x.1.2
        · rw [e, Function.update_self]
          refine ⟨D, hs.alive _ ⟨x.1.1, ?_, hxb⟩, .inl rfl⟩
          exact hs.sub.trans (copied_src hxm)
        · rw [Function.update_of_ne e]
          rcases List.mem_append.1 hz with hz | hz
          · exact old hz
          · rw [List.mem_singleton] at hz
            subst hz
            exact absurd rfl e
      · next hxb =>
        rcases List.mem_append.1 hz with hz | hz
        · exact old hz
        · rw [List.mem_singleton] at hz
          subst hz
          exact absurd hb hxb

/-- What a default constructor has set is not overwritten by a copy. -/
theorem copied_fresh (m : Embeds) : ∀ (p q : List (Node × Sub)), copied H c τ = p ++ q → ∀ y ∈ p, K.fresh y.1.1 = true → ∀ r, RootOf H y.1 r →
    ∃ d, p.foldl (CopyStep.runNode H K src) m r = some d ∧ K.fresh d = true := by
  intro p
  induction p using List.reverseRecOn with
  | nil => intro q _ z hz; simp at hz
  | append_singleton p x ih =>
    intro q h y hy hf r hr
    have h' : copied H c τ = p ++ x :: q := by rw [h]; simp
    have hxm : x ∈ copied H c τ := by rw [h']; simp
    have hym : y ∈ copied H c τ := by rw [h]; exact List.mem_append.2 (.inl hy)
    rw [List.foldl_append, List.foldl_cons, List.foldl_nil]
    generalize hm' : p.foldl (CopyStep.runNode H K src) m = m'
    have old : y ∈ p → ∃ d, m' r = some d ∧ K.fresh d = true := by
      intro hy
      obtain ⟨d, h1, h2⟩ := ih (x :: q) h' y hy hf r hr
      exact ⟨d, by rw [← hm', h1], h2⟩
    rw [runNode_eq]
    split
    · next hxf =>
      by_cases hxr : RootOf H x.1 r
      · exact ⟨x.1.1, (updateVptr_spec H _ _ _ _ _).1 hxr, hxf⟩
      · rw [(updateVptr_spec H _ _ _ _ _).2 hxr]
        rcases List.mem_append.1 hy with hy | hy
        · exact old hy
        · rw [List.mem_singleton] at hy
          subst hy
          exact absurd hr hxr
    · next hxf =>
      have hyp : y ∈ p := by
        rcases List.mem_append.1 hy with hy | hy
        · exact hy
        · rw [List.mem_singleton] at hy
          subst hy
          exact absurd hf hxf
      split
      · next hxb =>
        by_cases e : r = x.1.2
        · exfalso
          obtain ⟨a, hya, ha⟩ := hr
          have hyb := copied_below hym
          have hw1 : WellNamed (a, r) := (hyb.trans hya).wellNamed ⟨[], rfl⟩
          have hw2 : WellNamed x.1 := (copied_below hxm).wellNamed ⟨[], rfl⟩
          have hax : (a, r) = x.1 := hw1.ext hw2 e
          rw [hax] at hya
          exact copied_above h' hyb hya (by intro e; rw [e] at hf; exact hxf hf) (List.mem_map_of_mem hyp)
        · rw [Function.update_of_ne e]
          exact old hyp
      · exact old hyp

/-- Just after the mixin of a subobject is constructed. -/
theorem copied_exact (hs : CopySource H src D c τ) (m : Embeds) {p q : List (Node × Sub)} {x : Node × Sub} (h : copied H c τ = p ++ x :: q) :
    EmbedsClass H ((p ++ [x]).foldl (CopyStep.runNode H K src) m) x.1.1 x.1.2 ↔ K.fresh x.1.1 = true ∨ (x.1.1 = D ∧ AllCopied H K D) := by
  have h' : copied H c τ = (p ++ [x]) ++ q := by rw [h]; simp
  have hx : Below H (c, [c]) x.1 := copied_below (by rw [h]; simp)
  have hroot : ∀ r, RootOf H x.1 r → ∃ d, (p ++ [x]).foldl (CopyStep.runNode H K src) m r = some d ∧ (d = D ∨ ∃ y ∈ p ++ [x], K.fresh y.1.1 = true ∧ d = y.1.1) := by
    rintro r ⟨a, ha, hab⟩
    obtain ⟨z, hz, e⟩ := List.mem_map.1 (copied_inside h ha)
    obtain ⟨d, h1⟩ := copied_values (K := K) hs m _ _ h' z hz (by rw [e]; exact hab)
    rw [e] at h1
    exact ⟨d, h1⟩
  constructor
  · intro he
    by_cases hf : K.fresh x.1.1 = true
    · exact .inl hf
    · refine .inr ?_
      have hr0 := vptrRoot_rootOf (H := H) x.1.1 x.1.2
      obtain ⟨d, hd, hd'⟩ := hroot _ hr0
      rw [he _ hr0] at hd
      have hxd : x.1.1 = D := by
        rcases hd' with e | ⟨y, _, hy, e⟩
        · rw [← e]; exact Option.some.inj hd
        · rw [← Option.some.inj hd] at e
          rw [e] at hf
          exact absurd hy hf
      refine ⟨hxd, ?_⟩
      have hcD : c ≤ D := hs.sub.le
      have hxc : x.1.1 ≤ c := hx.le
      have hc : c = D := Nat.le_antisymm hcD (hxd ▸ hxc)
      subst hc
      have hxe : (c, [c]) = x.1 := hx.eq_of_le (Nat.le_of_eq hxd.symm)
      intro y hy
      by_contra hyf
      rw [Bool.not_eq_false] at hyf
      obtain ⟨z, hz, e⟩ := List.mem_map.1 (copied_inside h (show Below H x.1 y from hxe ▸ hy))
      have hr := vptrRoot_rootOf (H := H) y.1 y.2
      obtain ⟨d', h1, h2⟩ := copied_fresh (K := K) (src := src) m _ _ h' z hz (by rw [e]; exact hyf) _ (by rw [e]; exact hr)
      rw [he _ (hr.above (show Below H x.1 y from hxe ▸ hy))] at h1
      rw [← Option.some.inj h1] at h2
      exact hf h2
  · rintro (hf | ⟨hxd, ha⟩)
    · rw [List.foldl_append, List.foldl_cons, List.foldl_nil]
      rw [runNode_eq, if_pos hf]
      exact updateVptr_embeds _ _ _
    · intro r hr
      obtain ⟨d, hd, hd'⟩ := hroot r hr
      rw [hd, hxd]
      rcases hd' with rfl | ⟨y, hy, hyf, _⟩
      · rfl
      · exfalso
        have hcD : c ≤ D := hs.sub.le
        have hc : c = D := Nat.le_antisymm hcD (hxd ▸ hx.le)
        subst hc
        have := ha _ (copied_below (x := y) (τ := τ) (by rw [h']; exact List.mem_append.2 (.inl hy)))
        rw [this] at hyf
        cases hyf

theorem runCopy_append (m : Embeds) (l l' : List CopyStep) : runCopy H K src m (l ++ l') = runCopy H K src (runCopy H K src m l) l' := List.foldl_append

/-! ## Assignments -/

theorem assignVptr_spec {a : Cls} {r : Sub} (ha : H.bases a = []) (hw : WellNamed (a, r)) : ∀ (c : Cls) (σ τ : Sub), WellNamed (c, σ) → (∀ r, RootOf H (c, τ) r → src r = some D) →
    ∀ (m : Embeds), (Below H (c, σ) (a, r) → assignVptr H K src c σ τ m r = if K.keeps a then m r else some D) ∧
    (¬ Below H (c, σ) (a, r) → assignVptr H K src c σ τ m r = m r) := by
  intro c
  induction c using Nat.strongRecOn with
  | _ c ih =>
    intro σ τ hcw hsrc m
    rw [assignVptr]
    by_cases hb : H.bases c = []
    · have hbelow : Below H (c, σ) (a, r) ↔ (c, σ) = (a, r) := by
        constructor
        · intro h
          rcases h.cases with e | ⟨b, hb', _⟩
          · exact e
          · rw [hb] at hb'; simp at hb'
        · intro e; rw [e]; exact .refl _
      have hfold : (H.bases c).attach.foldl (fun m b => assignVptr H K src b.1.1 (baseSub σ b.1) (baseSub τ b.1) m) m = m := by
        have : (H.bases c).attach = [] := by rw [List.attach_eq_nil_iff]; exact hb
        rw [this]; rfl
      simp only [hfold]
      rw [hbelow, if_pos hb]
      constructor
      · intro e
        obtain ⟨rfl, rfl⟩ := Prod.mk.inj e
        split
        · rfl
        · rw [Function.update_self]
          exact hsrc τ ((rootOf_leaf (x := (c, τ)) hb τ).2 rfl)
      · intro hn
        split
        · rfl
        · refine Function.update_of_ne (fun e => hn ?_) _ _
          exact (hcw.ext hw e.symm)
    · have hbelow : Below H (c, σ) (a, r) ↔ ∃ b ∈ H.bases c, Below H (b.1, baseSub σ b) (a, r) := by
        constructor
        · intro h
          rcases h.cases with e | h
          · rw [(Prod.mk.inj e).1] at hb; exact absurd ha hb
          · exact h
        · rintro ⟨b, hb, h⟩; exact .step b hb h
      have key : ∀ (l : List { b // b ∈ H.bases c }) (m : Embeds),
          ((∃ b ∈ l, Below H (b.1.1, baseSub σ b.1) (a, r)) → l.foldl (fun m b => assignVptr H K src b.1.1 (baseSub σ b.1) (baseSub τ b.1) m) m r = if K.keeps a then m r else some D) ∧
          ((∀ b ∈ l, ¬ Below H (b.1.1, baseSub σ b.1) (a, r)) → l.foldl (fun m b => assignVptr H K src b.1.1 (baseSub σ b.1) (baseSub τ b.1) m) m r = m r) := by
        intro l
        induction l with
        | nil => intro m; simp
        | cons b l ihl =>
          intro m
          rw [List.foldl_cons]
          have hb := ih b.1.1 (H.lt c b.1 b.2) (baseSub σ b.1) (baseSub τ b.1) (wellNamed_child (c, σ) b.1)
            (fun r hr => hsrc r (hr.above (x := (c, τ)) (.step b.1 b.2 (.refl _)))) m
          by_cases hl : ∃ b ∈ l, Below H (b.1.1, baseSub σ b.1) (a, r)
          · refine ⟨fun _ => ?_, fun hn => ?_⟩
            · rw [(ihl _).1 hl]
              split
              · next hk =>
                by_cases hbb : Below H (b.1.1, baseSub σ b.1) (a, r)
                · rw [hb.1 hbb, if_pos hk]
                · exact hb.2 hbb
              · rfl
            · obtain ⟨b', hb', hr⟩ := hl
              exact absurd hr (hn b' (by simp [hb']))
          · have hl' : ∀ b ∈ l, ¬ Below H (b.1.1, baseSub σ b.1) (a, r) := fun b hb hr => hl ⟨b, hb, hr⟩
            rw [(ihl _).2 hl']
            refine ⟨?_, fun hn => hb.2 (hn b (by simp))⟩
            rintro ⟨b', hb', hr⟩
            rcases List.mem_cons.1 hb' with rfl | hb'
            · exact hb.1 hr
            · exact absurd hr (hl' b' hb')
      have hsame : ∀ m' : Embeds, (if K.keeps c = true then m' else if H.bases c = [] then Function.update m' σ (src τ) else m') = m' := by
        intro m'
        rw [if_neg hb, ite_self]
      simp only [hsame]
      rw [hbelow]
      refine ⟨?_, ?_⟩
      · rintro ⟨b, hb, h⟩
        exact (key _ m).1 ⟨⟨b, hb⟩, List.mem_attach _ _, h⟩
      · intro hn
        exact (key _ m).2 fun b _ h => hn ⟨b.1, b.2, h⟩

theorem assignWithin_embeds : ∀ (c : Cls) (σ τ : Sub), Below H (D, [D]) (c, τ) → ∀ (m : Embeds), EmbedsClass H m D [D] → EmbedsClass H (assignWithin H K c σ τ m) D [D] := by
  intro c
  induction c using Nat.strongRecOn with
  | _ c ih =>
    intro σ τ hτ m hm
    rw [assignWithin]
    have key : ∀ (l : List { b // b ∈ H.bases c }) (m : Embeds), EmbedsClass H m D [D] →
        EmbedsClass H (l.foldl (fun m b => assignWithin H K b.1.1 (baseSub σ b.1) (baseSub τ b.1) m) m) D [D] := by
      intro l
      induction l with
      | nil => intro m hm; exact hm
      | cons b l ihl => intro m hm; exact ihl _ (ih b.1.1 (H.lt c b.1 b.2) _ _ (hτ.trans (.step b.1 b.2 (.refl _))) m hm)
    have hm' := key (H.bases c).attach m hm
    split
    · exact hm'
    · split
      · next hb =>
        intro r hr
        by_cases e : r = σ
        · rw [e, Function.update_self]
          exact hm' τ ⟨c, hτ, hb⟩
        · rw [Function.update_of_ne e]
          exact hm' r hr
      · exact hm'

end OpenMethod
