import Verif.Proof.Outcome
import Verif.Proof.Accept
import Verif.SpecChange

/-! # What the outcome of a call depends on -/

namespace OpenMethod

open Spec

variable {p p' : Program}

theorem applicable_congr (ht : p'.rtti = p.rtti) (hd : ∀ a b, Derives p' a b ↔ Derives p a b) (o : OverriderInfo) (xs : List Cls) :
    Applicable p' o xs ↔ Applicable p o xs := by
  unfold Applicable Accepts classesOf
  rw [ht]
  simp only [hd]

theorem moreSpecific_congr (ht : p'.rtti = p.rtti) (hd : ∀ a b, Derives p' a b ↔ Derives p a b) (o o' : OverriderInfo) :
    MoreSpecific p' o o' ↔ MoreSpecific p o o' := by
  unfold MoreSpecific ProperlyDerives classesOf
  rw [ht]
  simp only [hd]

theorem derives_congr (ht : p'.rtti = p.rtti) (hc : p'.classes = p.classes) (a b : Cls) : Derives p' a b ↔ Derives p a b := by
  unfold Derives
  have : DeclaredBase p' = DeclaredBase p := by
    funext d b
    unfold DeclaredBase
    rw [ht, hc]
  rw [this]

/-- The outcome of a call is determined by the inheritance relation and the applicable overriders. -/
theorem refCall_congr' (ht : p'.rtti = p.rtti) (hd : ∀ a b, Derives p' a b ↔ Derives p a b) {m m' : MethodInfo} {xs : List Cls}
    (ho : applicable p' m' xs = applicable p m xs) (types : List TypeId) : refCall p' m' xs types = refCall p m xs types := by
  have : moreB p' = moreB p := by
    funext a b
    unfold moreB
    rw [decide_eq_decide]
    exact moreSpecific_congr ht hd a b
  unfold refCall
  rw [ho, this]

theorem applicable_eq (ht : p'.rtti = p.rtti) (hd : ∀ a b, Derives p' a b ↔ Derives p a b) {m m' : MethodInfo} (xs : List Cls)
    (ho : m'.overriders = m.overriders) : applicable p' m' xs = applicable p m xs := by
  unfold applicable
  rw [ho]
  apply List.filter_congr
  intro o _
  rw [decide_eq_decide]
  exact applicable_congr ht hd o xs

theorem dominates_congr (ht : p'.rtti = p.rtti) (hd : ∀ a b, Derives p' a b ↔ Derives p a b) {m : MethodInfo} (i j : Nat) :
    Dominates p' m i j ↔ Dominates p m i j := by
  unfold Dominates
  simp only [moreSpecific_congr ht hd]

theorem applicableAt_congr (ht : p'.rtti = p.rtti) (hd : ∀ a b, Derives p' a b ↔ Derives p a b) {m : MethodInfo} {xs : List Cls} (i : Nat) :
    ApplicableAt p' m xs i ↔ ApplicableAt p m xs i := by
  unfold ApplicableAt
  simp only [applicable_congr ht hd]

theorem undominated_congr (ht : p'.rtti = p.rtti) (hd : ∀ a b, Derives p' a b ↔ Derives p a b) {m : MethodInfo} {xs : List Cls} {i : Nat} :
    Undominated p' m xs i ↔ Undominated p m xs i := by
  unfold Undominated
  simp only [applicableAt_congr ht hd, dominates_congr ht hd]

theorem settled_congr (ht : p'.rtti = p.rtti) (hd : ∀ a b, Derives p' a b ↔ Derives p a b) {m : MethodInfo} {xs : List Cls} :
    Settled p' m xs ↔ Settled p m xs := by
  unfold Settled SettledOn
  simp only [applicableAt_congr ht hd, dominates_congr ht hd]

/-! ## The order of overriders -/

/-- When dominance is transitive, the survivors are the undominated overriders. -/
theorem survivors_filter (l : List OverriderInfo)
    (ht : ∀ a ∈ l, ∀ b ∈ l, ∀ c ∈ l, MoreSpecific p a b → MoreSpecific p b c → MoreSpecific p a c) :
    survivors (moreB p) l = l.filter (fun o => l.all (fun o' => !moreB p o' o)) := by
  let at_ : Nat → Nat → Bool := fun i j =>
    match l[i]?, l[j]? with
    | some a, some b => moreB p a b
    | _, _ => false
  have hat : ∀ i j, at_ i j = true ↔ ∃ a b, l[i]? = some a ∧ l[j]? = some b ∧ moreB p a b = true := by
    intro i j
    simp only [at_]
    cases l[i]? <;> cases l[j]? <;> simp
  have hir : ∀ i, at_ i i = false := by
    intro i
    by_contra h
    rw [Bool.not_eq_false, hat] at h
    obtain ⟨a, b, ha, hb, hab⟩ := h
    obtain rfl := Option.some.inj (ha.symm.trans hb)
    exact moreSpecific_irrefl a (by simpa [moreB] using hab)
  have hmap : (List.range l.length).map (fun i => l[i]?) = l.map some := by
    apply List.ext_getElem
    · simp
    · intro i h1 h2
      simp at h1
      simp [h1]
  let more' : Option OverriderInfo → Option OverriderInfo → Bool := fun a b =>
    match a, b with
    | some a, some b => moreB p a b
    | _, _ => false
  have e1 := survivors_map (fun i => l[i]?) at_ more' (List.range l.length) (fun _ _ _ _ => rfl)
  have e2 := survivors_map some (moreB p) more' l (fun _ _ _ _ => rfl)
  rw [hmap, e2] at e1
  have S := surv_survivors at_ (List.range l.length)
  have hfil : survivors at_ (List.range l.length) = (List.range l.length).filter (fun i => (List.range l.length).all (fun j => !at_ j i)) := by
    have hnd := List.nodup_range (n := l.length)
    have hm := S.mem_iff hir (by
      intro i _ j _ k _ h1 h2
      rw [hat] at *
      obtain ⟨a, b, ha, hb, hab⟩ := h1
      obtain ⟨b', c, hb', hc, hbc⟩ := h2
      obtain rfl := Option.some.inj (hb.symm.trans hb')
      refine ⟨a, c, ha, hc, ?_⟩
      simp only [moreB, decide_eq_true_eq] at *
      exact ht a (List.mem_of_getElem? ha) b (List.mem_of_getElem? hb) c (List.mem_of_getElem? hc) hab hbc)
    have hs := List.filter_sublist (l := List.range l.length) (p := fun i => (List.range l.length).all (fun j => !at_ j i))
    refine List.Perm.eq_of_pairwise (le := (· < ·)) (fun a b _ _ h1 h2 => absurd h1 (Nat.lt_asymm h2)) ?_ ?_ ?_
    · exact List.pairwise_lt_range.sublist S.sub
    · exact List.pairwise_lt_range.sublist hs
    · rw [List.perm_ext_iff_of_nodup (S.sub.nodup hnd) (hs.nodup hnd)]
      intro i
      rw [hm, List.mem_filter]
      simp
  rw [hfil] at e1
  have key : ((List.range l.length).filter (fun i => (List.range l.length).all (fun j => !at_ j i))).map (fun i => l[i]?) =
      (l.filter (fun o => l.all (fun o' => !moreB p o' o))).map some := by
    have : ∀ (f : Nat → Bool) (q : OverriderInfo → Bool), (List.range l.length).map (fun i => l[i]?) = l.map some →
        (∀ i o, l[i]? = some o → f i = q o) →
        ((List.range l.length).filter f).map (fun i => l[i]?) = (l.filter q).map some := by
      intro f q h1 h2
      have h3 : ((List.range l.length).map (fun i => l[i]?)).filter (fun o => match o with | some o => q o | none => false) =
          ((List.range l.length).filter f).map (fun i => l[i]?) := by
        rw [List.filter_map]
        congr 1
        apply List.filter_congr
        intro i hi
        rw [List.mem_range] at hi
        simp only [Function.comp_apply, List.getElem?_eq_getElem hi]
        exact (h2 i _ (List.getElem?_eq_getElem hi)).symm
      rw [← h3, h1, List.filter_map]
      rfl
    refine this _ _ hmap ?_
    intro i o ho
    rw [Bool.eq_iff_iff, List.all_eq_true, List.all_eq_true]
    constructor
    · intro h o' ho'
      obtain ⟨j, hj⟩ := List.getElem?_of_mem ho'
      have := h j (List.mem_range.2 (List.getElem?_eq_some_iff.1 hj).1)
      simpa only [at_, hj, ho] using this
    · intro h j hj
      rw [List.mem_range] at hj
      have := h l[j] (List.getElem_mem hj)
      simpa only [at_, List.getElem?_eq_getElem hj, ho] using this
  rw [key] at e1
  exact List.map_injective_iff.2 (Option.some_injective _) e1

theorem resultOf_perm {l l' : List OverriderInfo} (h : l.Perm l') (types : List TypeId) : resultOf types l = resultOf types l' := by
  match l, l' with
  | [], [] => rfl
  | [a], [b] => simp at h; rw [h]
  | a :: b :: l, a' :: b' :: l' => rfl
  | [], _ :: _ => simp at h
  | _ :: _, [] => simp at h
  | [_], _ :: _ :: _ => simpa using h.length_eq
  | _ :: _ :: _, [_] => simpa using h.length_eq

theorem transitive_list {m : MethodInfo} {xs : List Cls} (ht : TransitiveAt p m xs) :
    ∀ a ∈ applicable p m xs, ∀ b ∈ applicable p m xs, ∀ c ∈ applicable p m xs,
      MoreSpecific p a b → MoreSpecific p b c → MoreSpecific p a c := by
  have hget : ∀ a ∈ applicable p m xs, ∃ i, m.overriders[i]? = some a ∧ ApplicableAt p m xs i := by
    intro a ha
    simp only [applicable, List.mem_filter, decide_eq_true_eq] at ha
    obtain ⟨i, hi⟩ := List.getElem?_of_mem ha.1
    exact ⟨i, hi, a, hi, ha.2⟩
  intro a ha b hb c hc h1 h2
  obtain ⟨i, hi, hi'⟩ := hget a ha
  obtain ⟨j, hj, hj'⟩ := hget b hb
  obtain ⟨k, hk, hk'⟩ := hget c hc
  obtain ⟨a', c', ha', hc', h⟩ := ht i j k hi' hj' hk' ⟨a, b, hi, hj, h1⟩ ⟨b, c, hj, hk, h2⟩
  obtain rfl := Option.some.inj (hi.symm.trans ha')
  obtain rfl := Option.some.inj (hk.symm.trans hc')
  exact h

/-- The order of overriders does not matter when dominance is transitive. -/
theorem refCall_perm {m m' : MethodInfo} {xs : List Cls} (ht : TransitiveAt p m xs) (h : m'.overriders.Perm m.overriders)
    (types : List TypeId) : refCall p m' xs types = refCall p m xs types := by
  have hp : (applicable p m' xs).Perm (applicable p m xs) := h.filter _
  have hl := transitive_list ht
  unfold refCall
  rw [survivors_filter _ hl, survivors_filter _ (fun a ha b hb c hc => hl a (hp.subset ha) b (hp.subset hb) c (hp.subset hc))]
  apply resultOf_perm
  have : (fun o => (applicable p m' xs).all (fun o' => !moreB p o' o)) = (fun o => (applicable p m xs).all (fun o' => !moreB p o' o)) := by
    funext o
    rw [Bool.eq_iff_iff, List.all_eq_true, List.all_eq_true]
    exact ⟨fun h o' ho' => h o' (hp.symm.subset ho'), fun h o' ho' => h o' (hp.subset ho')⟩
  rw [this]
  exact hp.filter _

/-! ## Settled choices, and the order of overriders -/

/-- Where an element of a list is in a permutation of the list, and what else there is. -/
theorem perm_index {α : Type} {l l' : List α} (h : l'.Perm l) {i : Nat} {a : α} (hi : l[i]? = some a) :
    ∃ i' : Nat, l'[i']? = some a ∧ ∀ x, (∃ j : Nat, j ≠ i ∧ l[j]? = some x) ↔ ∃ j : Nat, j ≠ i' ∧ l'[j]? = some x := by
  obtain ⟨i', hi'⟩ := List.getElem?_of_mem (h.symm.subset (List.mem_of_getElem? hi))
  refine ⟨i', hi', fun x => ?_⟩
  have e : ∀ {l : List α} {i : Nat}, l[i]? = some a → l.Perm (a :: l.eraseIdx i) := by
    intro l i h
    obtain ⟨hlt, rfl⟩ := List.getElem?_eq_some_iff.1 h
    exact (List.getElem_cons_eraseIdx_perm hlt).symm
  have hp : (l'.eraseIdx i').Perm (l.eraseIdx i) := List.Perm.cons_inv ((e hi').symm.trans (h.trans (e hi)))
  rw [← List.mem_eraseIdx_iff_getElem?, ← List.mem_eraseIdx_iff_getElem?]
  exact hp.symm.mem_iff

theorem undominated_mem {m : MethodInfo} {xs : List Cls} {i : Nat} {o : OverriderInfo} (ho : m.overriders[i]? = some o) :
    Undominated p m xs i ↔ Applicable p o xs ∧ ∀ o' ∈ m.overriders, Applicable p o' xs → ¬ MoreSpecific p o' o := by
  constructor
  · rintro ⟨⟨o1, ho1, hA⟩, h⟩
    obtain rfl := Option.some.inj (ho.symm.trans ho1)
    refine ⟨hA, fun o' ho' hA' hd => ?_⟩
    obtain ⟨j, hj⟩ := List.getElem?_of_mem ho'
    exact h j ⟨o', hj, hA'⟩ ⟨o', o, hj, ho, hd⟩
  · rintro ⟨hA, h⟩
    refine ⟨⟨o, ho, hA⟩, ?_⟩
    rintro j ⟨a, ha, hA'⟩ ⟨a1, b, ha1, hb, hd⟩
    obtain rfl := Option.some.inj (ha.symm.trans ha1)
    obtain rfl := Option.some.inj (ho.symm.trans hb)
    exact h a (List.mem_of_getElem? ha) hA' hd

theorem Spec.Settled.perm {m m' : MethodInfo} {xs : List Cls} (h : m'.overriders.Perm m.overriders) (hs : Settled p m xs) : Settled p m' xs := by
  rcases hs with h0 | ⟨i, j, hne, hi, hj⟩ | ⟨i, ⟨o, ho, hA⟩, hb⟩
  · refine .inl ?_
    rintro i ⟨o, ho, hA⟩
    obtain ⟨j, hj⟩ := List.getElem?_of_mem (h.subset (List.mem_of_getElem? ho))
    exact h0 j ⟨o, hj, hA⟩
  · obtain ⟨a, ha, _⟩ := hi.1
    obtain ⟨b, hb, _⟩ := hj.1
    obtain ⟨i', hi', hr⟩ := perm_index h ha
    obtain ⟨j', hne', hj'⟩ := (hr b).1 ⟨j, hne.symm, hb⟩
    refine .inr (.inl ⟨i', j', hne'.symm, (undominated_mem hi').2 ?_, (undominated_mem hj').2 ?_⟩)
    · exact ((undominated_mem ha).1 hi).imp_right fun h' o' ho' => h' o' (h.subset ho')
    · exact ((undominated_mem hb).1 hj).imp_right fun h' o' ho' => h' o' (h.subset ho')
  · obtain ⟨i', hi', hr⟩ := perm_index h ho
    refine .inr (.inr ⟨i', ⟨o, hi', hA⟩, ?_⟩)
    rintro j' ⟨b, hj', hB⟩ hne
    obtain ⟨j, hne', hj⟩ := (hr b).2 ⟨j', hne, hj'⟩
    obtain ⟨o1, b1, ho1, hb1, hd⟩ := hb j ⟨b, hj, hB⟩ hne'
    obtain rfl := Option.some.inj (ho.symm.trans ho1)
    obtain rfl := Option.some.inj (hj.symm.trans hb1)
    exact ⟨o, b, hi', hj', hd⟩

/-- The order of overriders does not matter when the choice is settled. -/
theorem refCall_perm_settled {m m' : MethodInfo} {xs : List Cls} (hs : Settled p m xs) (h : m'.overriders.Perm m.overriders)
    (types : List TypeId) : refCall p m' xs types = refCall p m xs types := by
  have none : ∀ {m : MethodInfo}, (∀ i, ¬ ApplicableAt p m xs i) → refCall p m xs types = .err (.noOverrider (badCallArity types) (badCallTypes types)) := by
    intro m h
    have hR := refCall_remain p m xs types
    have : appIdx p m xs = [] := List.eq_nil_iff_forall_not_mem.2 fun i hi => h i (mem_appIdx.1 hi)
    rw [this] at hR
    exact hR
  rcases hs with h0 | ⟨i, j, hne, hi, hj⟩ | ⟨i, ⟨o, ho, hA⟩, hb⟩
  · rw [none h0, none]
    rintro i ⟨o, ho, hA⟩
    obtain ⟨j, hj⟩ := List.getElem?_of_mem (h.subset (List.mem_of_getElem? ho))
    exact h0 j ⟨o, hj, hA⟩
  · obtain ⟨a, ha, _⟩ := hi.1
    obtain ⟨b, hb, _⟩ := hj.1
    obtain ⟨i', hi', hr⟩ := perm_index h ha
    obtain ⟨j', hne', hj'⟩ := (hr b).1 ⟨j, hne.symm, hb⟩
    rw [refCall_two hne hi hj, refCall_two hne'.symm ((undominated_mem hi').2 ?_) ((undominated_mem hj').2 ?_)]
    · exact ((undominated_mem ha).1 hi).imp_right fun h' o' ho' => h' o' (h.subset ho')
    · exact ((undominated_mem hb).1 hj).imp_right fun h' o' ho' => h' o' (h.subset ho')
  · obtain ⟨i', hi', hr⟩ := perm_index h ho
    rw [refCall_best ho hA hb, refCall_best hi' hA ?_]
    rintro j' ⟨b, hj', hB⟩ hne
    obtain ⟨j, hne', hj⟩ := (hr b).2 ⟨j', hne, hj'⟩
    obtain ⟨o1, b1, ho1, hb1, hd⟩ := hb j ⟨b, hj, hB⟩ hne'
    obtain rfl := Option.some.inj (ho.symm.trans ho1)
    obtain rfl := Option.some.inj (hj.symm.trans hb1)
    exact ⟨o, b, hi', hj', hd⟩

/-- Method `m` with overrider number `i` first. -/
def MethodInfo.first (m : MethodInfo) (i : Nat) (o : OverriderInfo) : MethodInfo := { m with overriders := o :: m.overriders.eraseIdx i }

theorem MethodInfo.first_reordered {m : MethodInfo} {i : Nat} {o : OverriderInfo} (ho : m.overriders[i]? = some o) : Reordered m (m.first i o) := by
  refine ⟨rfl, rfl, rfl, rfl, ?_⟩
  obtain ⟨hlt, rfl⟩ := List.getElem?_eq_some_iff.1 ho
  exact List.getElem_cons_eraseIdx_perm hlt

/-- When the first candidate is undominated, it eliminates exactly those it dominates. -/
theorem sweepL_undominated {α : Type} {more : α → α → Bool} {a : α} {l : List α} (h : ∀ b ∈ l, more b a = false) :
    sweepL more a l = (true, l.filter fun b => !more a b) := by
  induction l with
  | nil => rfl
  | cons b r ih =>
    unfold sweepL
    rw [ih fun b hb => h b (List.mem_cons_of_mem _ hb), h b List.mem_cons_self]
    cases hb : more a b <;> simp [hb]

open Classical in
/-- If overrider `i` is undominated but does not dominate all others, calls are ambiguous when it comes first. -/
theorem refCall_first {m : MethodInfo} {xs : List Cls} {i : Nat} {o : OverriderInfo} (ho : m.overriders[i]? = some o) (hu : Undominated p m xs i)
    (hn : ∃ j, ApplicableAt p m xs j ∧ j ≠ i ∧ ¬ Dominates p m i j) (types : List TypeId) :
    refCall p (m.first i o) xs types = .err (.ambiguousCall (badCallArity types) (badCallTypes types)) := by
  obtain ⟨hA, hmax⟩ := (undominated_mem ho).1 hu
  obtain ⟨j, ⟨b, hb, hB⟩, hne, hd⟩ := hn
  have hp := (MethodInfo.first_reordered ho).overriders
  have hbm : b ∈ m.overriders.eraseIdx i := List.mem_eraseIdx_iff_getElem?.2 ⟨j, hne, hb⟩
  have e : applicable p (m.first i o) xs = o :: (m.overriders.eraseIdx i).filter fun o => decide (Applicable p o xs) := by
    unfold applicable MethodInfo.first
    rw [List.filter_cons_of_pos (by simpa using hA)]
  unfold refCall
  rw [e, survivors_cons, sweepL_undominated]
  · generalize hr : ((m.overriders.eraseIdx i).filter fun o => decide (Applicable p o xs)).filter (fun b => !moreB p o b) = r
    have hmem : b ∈ r := by
      rw [← hr, List.mem_filter, List.mem_filter]
      refine ⟨⟨hbm, by simpa using hB⟩, ?_⟩
      simp only [moreB, Bool.not_eq_true', decide_eq_false_iff_not]
      exact fun h => hd ⟨o, b, ho, hb, h⟩
    have hne : survivors (moreB p) r ≠ [] := survivors_ne_nil (List.ne_nil_of_mem hmem)
    rw [if_pos rfl]
    match survivors (moreB p) r, hne with
    | c :: l, _ => rfl
  · intro c hc
    rw [List.mem_filter] at hc
    have := hmax c (hp.subset (List.mem_cons_of_mem _ hc.1)) (by simpa using hc.2)
    simpa [moreB] using this

end OpenMethod
