import Verif.SpecOwnership

/-!
# Lemmas about ownership
-/

namespace OpenMethod.Ownership

theorem owns_eq (o : Own) : o.owns = o.isOwner := by cases o <;> rfl

theorem emptied_eq (x : Slot) : x.emptied = if x.own.isOwner then ⟨x.own, none⟩ else x := by rw [Slot.emptied, owns_eq]

@[simp] theorem hold_nil (a : Nat) : hold a [] = 0 := rfl
theorem hold_cons (a : Nat) (x : Slot) (xs : List Slot) : hold a (x :: xs) = hold a xs + if x.own.isOwner && x.obj == some a then 1 else 0 := by
  simp [hold, List.countP_cons]
@[simp] theorem hold_append (a : Nat) (xs ys : List Slot) : hold a (xs ++ ys) = hold a xs + hold a ys := by simp [hold]
@[simp] theorem hold_reverse (a : Nat) (xs : List Slot) : hold a xs.reverse = hold a xs := by simp [hold]

theorem hold_emptied (a : Nat) (x : Slot) : hold a [x.emptied] = 0 := by
  rw [emptied_eq]
  cases h : x.own.isOwner <;> simp [hold, h]

@[simp] theorem hold_map_emptied (a : Nat) (xs : List Slot) : hold a (xs.map Slot.emptied) = 0 := by
  induction xs with
  | nil => rfl
  | cons x xs ih =>
    have := hold_emptied a x
    simp only [hold_cons, hold_nil, Nat.zero_add] at this
    rw [List.map_cons, hold_cons, ih, this]

theorem hold_set (a : Nat) {xs : List Slot} {i : Nat} {x y : Slot} (h : xs[i]? = some x) : hold a (xs.set i y) + hold a [x] = hold a xs + hold a [y] := by
  induction xs generalizing i with
  | nil => simp at h
  | cons z zs ih =>
    cases i with
    | zero =>
      simp only [List.getElem?_cons_zero, Option.some.injEq] at h
      subst h
      simp only [List.set_cons_zero, hold_cons, hold_nil]
      omega
    | succ i =>
      simp only [List.getElem?_cons_succ] at h
      have := ih h
      simp only [List.set_cons_succ, hold_cons, hold_nil] at this ⊢
      omega

theorem hold_eraseIdx (a : Nat) {xs : List Slot} {i : Nat} {x : Slot} (h : xs[i]? = some x) : hold a (xs.eraseIdx i) + hold a [x] = hold a xs := by
  induction xs generalizing i with
  | nil => simp at h
  | cons z zs ih =>
    cases i with
    | zero =>
      simp only [List.getElem?_cons_zero, Option.some.injEq] at h
      subst h
      simp only [List.eraseIdx_cons_zero, hold_cons, hold_nil]
      omega
    | succ i =>
      simp only [List.getElem?_cons_succ] at h
      have := ih h
      simp only [List.eraseIdx_cons_succ, hold_cons, hold_nil] at this ⊢
      omega

theorem hold_pos {a : Nat} {xs : List Slot} {x : Slot} (hx : x ∈ xs) (ho : x.own.isOwner = true) (h : x.obj = some a) : 0 < hold a xs :=
  List.countP_pos_iff.2 ⟨x, hx, by simp [ho, h]⟩

/-- Objects stay what they are. -/
def Grows (s s' : Store) : Prop := s.next ≤ s'.next ∧ ∀ a < s.next, s'.uniq a = s.uniq a

theorem Grows.refl (s : Store) : Grows s s := ⟨Nat.le_refl _, fun _ _ => rfl⟩
theorem Grows.trans {s s' s'' : Store} (h : Grows s s') (h' : Grows s' s'') : Grows s s'' :=
  ⟨Nat.le_trans h.1 h'.1, fun a ha => (h'.2 a (Nat.lt_of_lt_of_le ha h.1)).trans (h.2 a ha)⟩

theorem FOk.grows {s s' : Store} {ext : Nat → Nat} {F : List Slot} (h : FOk s ext F) (hg : Grows s s') : FOk s' ext F := fun x hx a ha =>
  ⟨(h x hx a ha).1, fun ho => (hg.2 a (h x hx a ha).2.2).trans ((h x hx a ha).2.1 ho), Nat.lt_of_lt_of_le (h x hx a ha).2.2 hg.1⟩

theorem FOk.mono {s : Store} {ext ext' : Nat → Nat} {F : List Slot} (h : FOk s ext F) (he : ∀ a, 0 < ext a → 0 < ext' a) : FOk s ext' F := fun x hx a ha =>
  ⟨fun ho => he a ((h x hx a ha).1 ho), (h x hx a ha).2⟩

theorem FOk.append {s : Store} {ext : Nat → Nat} {F G : List Slot} (h : FOk s ext F) (h' : FOk s ext G) : FOk s ext (F ++ G) := fun x hx =>
  (List.mem_append.1 hx).elim (h x) (h' x)

theorem emptied_own (x : Slot) : x.emptied.own = x.own := by rw [emptied_eq]; split <;> rfl

theorem FOk.emptied {s : Store} {ext : Nat → Nat} {x : Slot} (h : FOk s ext [x]) : FOk s ext [x.emptied] := by
  rw [emptied_eq]
  split
  · intro y hy a ha
    obtain rfl := List.mem_singleton.1 hy
    cases ha
  · exact h

theorem FOk.set {s : Store} {ext : Nat → Nat} {F : List Slot} {i : Nat} {y : Slot} (h : FOk s ext F) (h' : FOk s ext [y]) : FOk s ext (F.set i y) := by
  intro x hx
  rcases List.mem_or_eq_of_mem_set hx with hx | rfl
  · exact h x hx
  · exact h' x (by simp)

theorem FOk.get {s : Store} {ext : Nat → Nat} {F : List Slot} {i : Nat} {x : Slot} (h : FOk s ext F) (hx : F[i]? = some x) : FOk s ext [x] := by
  intro y hy
  obtain rfl := List.mem_singleton.1 hy
  exact h y (List.mem_of_getElem? hx)

theorem Good.congr {s : Store} {T T' : Nat → Nat} (h : Good s T) (he : ∀ a, T a = T' a) : Good s T' := by
  rw [← funext he]; exact h

theorem Good.alive {s : Store} {T : Nat → Nat} (h : Good s T) {a : Nat} (ha : 0 < T a) : s.count a ≠ 0 := by
  rw [h.count]; omega

/-- A smart pointer can be copied. -/
theorem Good.acquire {s : Store} {T : Nat → Nat} (h : Good s T) {a : Nat} (ha : 0 < T a) (hu : s.uniq a = false) :
    ∃ s', s.acquire a = .ok s' ∧ Good s' (fun b => T b + if b = a then 1 else 0) ∧ Grows s s' ∧ s'.globals = s.globals := by
  have h0 := h.alive ha
  refine ⟨_, if_neg (by simp [h0, hu]), ⟨fun b => ?_, fun b => ?_, h.nodup, fun b hb => ?_⟩, ⟨Nat.le_refl _, fun _ _ => rfl⟩, rfl⟩
  · have := h.count b
    by_cases hb : b = a
    · subst hb; simp only [if_true]; omega
    · simp only [hb, if_false]; omega
  · have := h.gone b
    by_cases hb : b = a
    · subst hb; simp [this, h0]
    · simpa [hb] using this
  · have := h.fresh b hb
    by_cases hb' : b = a
    · subst hb'; exact absurd this h0
    · simpa [hb'] using this

/-- An owner can be destroyed. -/
theorem Good.drop {s : Store} {T : Nat → Nat} {x : Slot} (h : Good s fun a => hold a [x] + T a) : ∃ s', s.drop x = .ok s' ∧ Good s' T ∧ Grows s s' ∧ s'.globals = s.globals := by
  obtain ⟨o, _ | a⟩ := x
  · exact ⟨s, rfl, h.congr fun a => by simp [hold_cons], .refl s, rfl⟩
  · cases ho : o.isOwner with
    | false => exact ⟨s, by simp [Store.drop, owns_eq, ho], h.congr fun b => by simp [hold_cons, ho], .refl s, rfl⟩
    | true =>
      have hc : s.count a ≠ 0 := h.alive (by simp [hold_cons, ho]; omega)
      refine ⟨{ s with
        count := fun b => if b = a then s.count a - 1 else s.count b
        gone := if s.count a = 1 then a :: s.gone else s.gone }, by simp only [Store.drop, owns_eq, ho, if_true, Store.release, hc, if_false], ⟨fun b => ?_, fun b => ?_, ?_, fun b hb => ?_⟩, ⟨Nat.le_refl _, fun _ _ => rfl⟩, rfl⟩
      · have := h.count b
        simp only [hold_cons, ho, Bool.true_and, hold_nil, Nat.zero_add, beq_iff_eq, Option.some.injEq] at this
        by_cases hb : b = a
        · subst hb; simp only [if_true] at this ⊢; omega
        · simp only [hb, Ne.symm hb, if_false] at this ⊢; omega
      · have := h.gone b
        have hlt : a < s.next := by
          by_contra hlt
          exact hc (h.fresh a (by omega))
        by_cases hb : b = a
        · subst hb
          simp only [if_true]
          by_cases h1 : s.count b = 1
          · simp [h1, hlt]
          · simp only [h1, if_false]
            rw [this]
            constructor
            · rintro ⟨_, h⟩; exact absurd h hc
            · rintro ⟨_, h⟩; omega
        · simp only [hb, if_false]
          split
          · simp [hb, this]
          · exact this
      · show List.Nodup (if s.count a = 1 then a :: s.gone else s.gone)
        split
        · exact List.nodup_cons.2 ⟨fun hm => hc ((h.gone a).1 hm).2, h.nodup⟩
        · exact h.nodup
      · have := h.fresh b hb
        by_cases hb' : b = a
        · subst hb'; exact absurd this hc
        · simpa [hb'] using this

theorem Good.dropAll {xs : List Slot} : ∀ {s : Store} {T : Nat → Nat}, Good s (fun a => hold a xs + T a) → ∃ s', s.dropAll xs = .ok s' ∧ Good s' T ∧ Grows s s' ∧ s'.globals = s.globals := by
  induction xs with
  | nil => exact fun {s T} h => ⟨s, rfl, h.congr fun a => by simp, .refl s, rfl⟩
  | cons x xs ih =>
    intro s T h
    obtain ⟨s1, e1, h1, g1, l1⟩ := Good.drop (x := x) (T := fun a => hold a xs + T a) (h.congr fun a => by simp only [hold_cons, hold_nil]; omega)
    obtain ⟨s2, e2, h2, g2, l2⟩ := ih h1
    exact ⟨s2, by simp [Store.dropAll, e1, e2], h2, g1.trans g2, l2.trans l1⟩

theorem set_own {F : List Slot} {i : Nat} {x y : Slot} (hx : F[i]? = some x) (h : y.own = x.own) : (F.set i y).map (·.own) = F.map (·.own) := by
  apply List.ext_getElem?
  intro j
  simp only [List.getElem?_map, List.getElem?_set]
  by_cases hj : i = j
  · subst hj
    obtain ⟨hlt, rfl⟩ := List.getElem?_eq_some_iff.1 hx
    simp [hlt, h]
  · simp [hj]

theorem get_of_own {F : List Slot} {os : List Own} {i : Nat} {o : Own} (hF : F.map (·.own) = os) (h : os[i]? = some o) : ∃ x, F[i]? = some x ∧ x.own = o := by
  subst hF
  simpa using h

/-- Moves keep the number of owners. -/
theorem hold_move (a : Nat) {F : List Slot} {i : Nat} {x : Slot} (h : F[i]? = some x) : hold a (F.set i x.emptied) + hold a [x] = hold a F := by
  have := hold_set a (y := x.emptied) h
  rw [hold_emptied] at this
  omega

/-- Variables that are not moved do not change. -/
theorem passAll_keeps {ps : List Param} : ∀ {s : Store} {F : List Slot} {s' as F'}, passAll s F ps = .ok (s', as, F') → ∀ i, (∀ p ∈ ps, p.arg ≠ .move i) → F'[i]? = F[i]? := by
  induction ps with
  | nil =>
    intro s F s' as F' h i _
    simp only [passAll, Res.ok.injEq, Prod.mk.injEq] at h
    rw [h.2.2]
  | cons p ps ih =>
    intro s F s' as F' h i hi
    cases hx : F[p.arg.var]? with
    | none => simp [passAll, hx] at h
    | some x =>
      cases hp : p.arg.pass s x with
      | err e => simp [passAll, hx, hp] at h
      | ub => simp [passAll, hx, hp] at h
      | ok t =>
        obtain ⟨s1, a, x'⟩ := t
        cases hr : passAll s1 (F.set p.arg.var x') ps with
        | err e => simp [passAll, hx, hp, hr] at h
        | ub => simp [passAll, hx, hp, hr] at h
        | ok t =>
          obtain ⟨s2, as2, F2⟩ := t
          simp only [passAll, hx, hp, hr, Res.ofOption_some, Res.ok_bind, Res.ok.injEq, Prod.mk.injEq] at h
          rw [← h.2.2, ih hr i fun q hq => hi q (List.mem_cons_of_mem _ hq), List.getElem?_set]
          have hne := hi p List.mem_cons_self
          split
          · rename_i heq
            have hsame : x' = x := by
              revert hp hne heq
              cases p.arg with
              | move j =>
                intro _ hne heq
                exact absurd (by simpa [Arg.var] using heq) hne
              | object j => intro hp _ _; simp only [Arg.pass, Res.ok.injEq, Prod.mk.injEq] at hp; exact hp.2.2.symm
              | ref j => intro hp _ _; simp only [Arg.pass, Res.ok.injEq, Prod.mk.injEq] at hp; exact hp.2.2.symm
              | copy j =>
                intro hp _ _
                simp only [Arg.pass] at hp
                cases hobj : x.obj with
                | none =>
                  simp only [hobj, Res.ok.injEq, Prod.mk.injEq] at hp
                  exact hp.2.2.symm
                | some a =>
                  simp only [hobj] at hp
                  cases ha : s.acquire a with
                  | err e => simp [ha] at hp
                  | ub => simp [ha] at hp
                  | ok s1 =>
                    simp only [ha, Res.ok_bind, Res.ok.injEq, Prod.mk.injEq] at hp
                    exact hp.2.2.symm
            subst hsame
            rw [← heq]
            obtain ⟨hlt, h'⟩ := List.getElem?_eq_some_iff.1 hx
            simp [hlt, h']
          · rfl

/-- Parameters can be initialised from variables. -/
theorem pass_ok {s : Store} {F : List Slot} {i : Nat} {ext R : Nat → Nat} {x : Slot} {arg : Arg} {y : Own} (hg : Good s fun a => hold a F + R a) (hR : ∀ a, ext a ≤ R a) (hF : FOk s ext F) (hi : arg.var = i) (hx : F[i]? = some x)
    (ht : arg.Typed x.own y) : ∃ s' a x', arg.pass s x = .ok (s', a, x') ∧ a.own = y ∧ x'.own = x.own ∧ Grows s s' ∧ Good s' (fun b => hold b [a] + (hold b (F.set i x') + R b)) ∧
      FOk s' ext (F.set i x') ∧ (∀ b, a.obj = some b → x.obj = some b ∧ (a.own = .shared ∨ a.own = .ref → s'.uniq b = false) ∧ b < s'.next) := by
  have hX := hF.get hx
  have hset : F.set i x = F := by
    apply List.ext_getElem?
    intro j
    rw [List.getElem?_set]
    obtain ⟨hlt, hx'⟩ := List.getElem?_eq_some_iff.1 hx
    split
    · rename_i h; subst h; simp [hlt, hx']
    · rfl
  cases ht with
  | object =>
    refine ⟨s, _, x, rfl, rfl, rfl, .refl s, hg.congr fun b => by simp [hset, hold_cons, Own.isOwner], by rw [hset]; exact hF, fun b hb => ⟨hb, by simp, (hX x (by simp) b hb).2.2⟩⟩
  | ref ho =>
    refine ⟨s, _, x, rfl, rfl, rfl, .refl s, hg.congr fun b => by simp [hset, hold_cons, Own.isOwner], by rw [hset]; exact hF, fun b hb =>
      ⟨hb, fun _ => (hX x (by simp) b hb).2.1 ho, (hX x (by simp) b hb).2.2⟩⟩
  | copy ho =>
    cases hobj : x.obj with
    | none => exact ⟨s, ⟨.shared, none⟩, x, by simp [Arg.pass, hobj], rfl, rfl, .refl s, hg.congr fun b => by simp [hset, hold_cons], by rw [hset]; exact hF, by simp⟩
    | some a =>
      have hu := (hX x (by simp) a hobj).2.1 ho
      have hpos : 0 < hold a F + R a := by
        have := hR a
        cases hown : x.own.isOwner with
        | false => have := (hX x (by simp) a hobj).1 hown; omega
        | true => have := hold_pos (List.mem_of_getElem? hx) hown hobj; omega
      obtain ⟨s', e, g, gr, _⟩ := hg.acquire hpos hu
      refine ⟨s', ⟨.shared, some a⟩, x, by simp [Arg.pass, hobj, e], rfl, rfl, gr, g.congr fun b => ?_, by rw [hset]; exact hF.grows gr, fun b hb => ?_⟩
      · rw [hset]
        by_cases hb : b = a
        · subst hb; simp [hold_cons, Own.isOwner]; omega
        · simp [hold_cons, hb, Ne.symm hb]
      · cases hb
        have := (hX x (by simp) a hobj).2.2
        exact ⟨rfl, fun _ => (gr.2 a this).trans hu, Nat.lt_of_lt_of_le this gr.1⟩
  | move ho =>
    refine ⟨s, x, x.emptied, rfl, rfl, emptied_own x, .refl s, hg.congr fun b => ?_, hF.set hX.emptied, fun b hb => ⟨hb, (hX x (by simp) b hb).2⟩⟩
    have := hold_move b hx
    omega

/-- The parameters of the call operator can be initialised. -/
theorem passAll_ok {ps : List Param} : ∀ {s : Store} {F : List Slot} {ext R : Nat → Nat} {os os' : List Own}, Good s (fun a => hold a F + R a) → (∀ a, ext a ≤ R a) → FOk s ext F →
    F.map (·.own) = os → List.Forall₂ (Param.Typed os) ps os' → MovedOnce ps → ∃ s' as F', passAll s F ps = .ok (s', as, F') ∧ Good s' (fun a => hold a as + (hold a F' + R a)) ∧ FOk s' ext F' ∧
      F'.map (·.own) = os ∧ Grows s s' ∧ FOk s' (fun a => hold a F' + ext a) as ∧
      List.Forall₂ (fun (q : Param × Own) o => q.1.mode.Typed q.2 o) (ps.zip (as.map (·.own))) os' ∧ as.length = ps.length := by
  induction ps with
  | nil =>
    intro s F ext R os os' hg _ hF ho ht _
    cases ht
    exact ⟨s, [], F, rfl, hg.congr fun a => by simp, hF, ho, .refl s, by intro x hx; simp at hx, .nil, rfl⟩
  | cons p ps ih =>
    intro s F ext R os os' hg hR hF ho ht hm
    cases ht with
    | cons hp hps =>
      obtain ⟨x0, y, hx0, hty, hmode⟩ := hp
      obtain ⟨x, hx, rfl⟩ := get_of_own ho hx0
      obtain ⟨s1, a, x', e1, ha, hx', gr1, g1, f1, hb⟩ := pass_ok hg hR hF rfl hx hty
      have hm' : MovedOnce ps := by
        intro q hq i hi
        have h1 := hm q (List.mem_cons_of_mem _ hq) i hi
        have h2 : 0 < (ps.map fun q => q.arg.var).count i := List.count_pos_iff.2 (List.mem_map.2 ⟨q, hq, by rw [hi]; rfl⟩)
        rw [List.map_cons, List.count_cons] at h1
        omega
      have ho1 : (F.set p.arg.var x').map (·.own) = os := (set_own hx hx').trans ho
      obtain ⟨s2, as, F', e2, g2, f2, ho2, gr2, fa, hz, hl⟩ := ih (R := fun b => hold b [a] + R b) (g1.congr fun b => by omega) (fun b => by have := hR b; omega) f1 ho1 hps hm'
      have hkeep : a.own.isOwner = false → F'[p.arg.var]? = some x := by
        intro hraw
        have hsame : x' = x := by
          revert hty e1
          cases p.arg with
          | move i =>
            intro hty _
            cases hty with
            | move h => rw [ha] at hraw; simp [h] at hraw
          | copy i =>
            intro hty _
            cases hty with
            | copy h => rw [ha] at hraw; simp [Own.isOwner] at hraw
          | object i => intro _ e1; simp only [Arg.pass, Res.ok.injEq, Prod.mk.injEq] at e1; exact e1.2.2.symm
          | ref i => intro _ e1; simp only [Arg.pass, Res.ok.injEq, Prod.mk.injEq] at e1; exact e1.2.2.symm
        rw [passAll_keeps e2, hsame]
        · obtain ⟨hlt, h'⟩ := List.getElem?_eq_some_iff.1 hx
          simp [hlt]
        · intro q hq hq'
          have h1 := hm q (List.mem_cons_of_mem _ hq) _ hq'
          have h2 : 0 < (ps.map fun q => q.arg.var).count p.arg.var := List.count_pos_iff.2 (List.mem_map.2 ⟨q, hq, by rw [hq']; rfl⟩)
          rw [List.map_cons, List.count_cons] at h1
          simp at h1
          omega
      refine ⟨s2, a :: as, F', by simp [passAll, hx, e1, e2], g2.congr fun b => ?_, f2, ho2, gr1.trans gr2, ?_, ?_, by simp [hl]⟩
      · simp only [hold_cons, hold_nil]; omega
      · intro z hz b hzb
        rcases List.mem_cons.1 hz with rfl | hz
        · obtain ⟨hxb, hu, hlt⟩ := hb b hzb
          refine ⟨fun hraw => ?_, fun h => (gr2.2 b hlt).trans (hu h), Nat.lt_of_lt_of_le hlt gr2.1⟩
          have hk := hkeep hraw
          cases hown : x.own.isOwner with
          | false => have := (f2.get hk x (by simp) b hxb).1 hown; show 0 < _ + _; omega
          | true => have := hold_pos (List.mem_of_getElem? hk) hown hxb; show 0 < _ + _; omega
        · exact fa z hz b hzb
      · exact .cons (by simpa [ha] using hmode) hz

/-- An argument can be cast. -/
theorem cast_ok {s : Store} {b : Slot} {ext R : Nat → Nat} {m : Mode} {c : Cast} {o : Own} (hg : Good s fun a => hold a [b] + R a) (hR : ∀ a, ext a ≤ R a) (hF : FOk s ext [b]) (ht : m.Typed b.own o) :
    ∃ s' r b', cast s b m c = .ok (s', r, b') ∧ Grows s s' ∧ Good s' (fun a => hold a r.toList + (hold a [b'] + R a)) ∧ FOk s' ext r.toList ∧ (r = none ∨ r.map (·.own) = some o) := by
  have hthrow : ∀ m, ∃ s' r b', cast s b m .throws = .ok (s', r, b') ∧ Grows s s' ∧ Good s' (fun a => hold a r.toList + (hold a [b'] + R a)) ∧ FOk s' ext r.toList ∧ (r = none ∨ r.map (·.own) = some o) :=
    fun m => ⟨s, none, b, by cases m <;> rfl, .refl s, hg.congr fun a => by simp, by intro x hx; simp at hx, .inl rfl⟩
  have hB := hF b (by simp)
  have hcopy : b.own = .ref ∨ b.own = .shared → o = .shared → ∀ m, m = .temporary ∨ m = .copied →
      ∃ s' r b', cast s b m .ok = .ok (s', r, b') ∧ Grows s s' ∧ Good s' (fun a => hold a r.toList + (hold a [b'] + R a)) ∧ FOk s' ext r.toList ∧ (r = none ∨ r.map (·.own) = some o) := by
    intro ho ho' m hm
    subst ho'
    cases hobj : b.obj with
    | none =>
      refine ⟨s, some ⟨.shared, none⟩, b, by rcases hm with rfl | rfl <;> simp [cast, hobj], .refl s, hg.congr fun a => by simp [hold_cons], ?_, .inr rfl⟩
      intro x hx a ha
      simp only [Option.toList_some, List.mem_singleton] at hx
      subst hx
      cases ha
    | some a =>
      have hu := (hB a hobj).2.1 ho.symm
      have hpos : 0 < hold a [b] + R a := by
        have := hR a
        rcases ho with ho | ho
        · have := (hB a hobj).1 (by rw [ho]; rfl); omega
        · have := hold_pos (xs := [b]) (by simp) (by rw [ho]; rfl) hobj; omega
      obtain ⟨s', e, g, gr, _⟩ := hg.acquire hpos hu
      refine ⟨s', some ⟨.shared, some a⟩, b, by rcases hm with rfl | rfl <;> simp [cast, hobj, e], gr, g.congr fun c => ?_, ?_, .inr rfl⟩
      · by_cases hc : c = a
        · subst hc; simp [hold_cons, Own.isOwner]; omega
        · simp [hold_cons, hc, Ne.symm hc]
      · intro x hx c hc
        simp only [Option.toList_some, List.mem_singleton] at hx
        subst hx
        cases hc
        have := (hB a hobj).2.2
        exact ⟨by simp [Own.isOwner], fun _ => (gr.2 a this).trans hu, Nat.lt_of_lt_of_le this gr.1⟩
  have hnull : ∀ o', ∀ m, cast s b m c = .ok (s, some ⟨o', none⟩, b) → o' = o →
      ∃ s' r b', cast s b m c = .ok (s', r, b') ∧ Grows s s' ∧ Good s' (fun a => hold a r.toList + (hold a [b'] + R a)) ∧ FOk s' ext r.toList ∧ (r = none ∨ r.map (·.own) = some o) := by
    intro o' m e ho
    refine ⟨s, _, b, e, .refl s, hg.congr fun a => by simp [hold_cons], ?_, .inr (by simp [ho])⟩
    intro x hx a ha
    simp only [Option.toList_some, List.mem_singleton] at hx
    subst hx
    cases ha
  have hborrow : ∀ o' : Own, o'.isOwner = false → b.own = o' → o = o' → ∀ m, cast s b m c = .ok (s, some ⟨o', b.obj⟩, b) →
      ∃ s' r b', cast s b m c = .ok (s', r, b') ∧ Grows s s' ∧ Good s' (fun a => hold a r.toList + (hold a [b'] + R a)) ∧ FOk s' ext r.toList ∧ (r = none ∨ r.map (·.own) = some o) := by
    intro o' hraw hbo ho m e
    refine ⟨s, _, b, e, .refl s, hg.congr fun a => by simp [hold_cons, hraw], ?_, .inr (by simp [ho])⟩
    intro x hx a ha
    simp only [Option.toList_some, List.mem_singleton] at hx
    subst hx
    obtain ⟨h1, h2, h3⟩ := hB a ha
    rw [hbo] at h1 h2
    exact ⟨h1, h2, h3⟩
  cases c with
  | throws => exact hthrow m
  | ok =>
    generalize hbo : b.own = bo at ht
    cases ht with
    | object => exact hborrow .raw rfl hbo rfl _ rfl
    | same => exact hborrow .ref rfl hbo rfl _ rfl
    | temporary => exact hcopy (.inl hbo) rfl _ (.inl rfl)
    | copied => exact hcopy (.inr hbo) rfl _ (.inr rfl)
    | moved ho =>
      refine ⟨s, some b, b.emptied, rfl, .refl s, hg.congr fun a => by simp [hold_emptied], hF, .inr (by simp [hbo])⟩
  | null =>
    generalize hbo : b.own = bo at ht
    cases ht with
    | object => exact hborrow .raw rfl hbo rfl _ rfl
    | same => exact hborrow .ref rfl hbo rfl _ rfl
    | temporary => exact hnull _ _ rfl rfl
    | copied => exact hnull _ _ rfl rfl
    | moved ho => exact hnull _ _ rfl hbo

/-- The arguments can be cast. -/
theorem castAll_ok {ps : List Param} : ∀ {bs : List Slot} {s : Store} {ext R : Nat → Nat} {os' : List Own}, Good s (fun a => hold a bs + R a) → (∀ a, ext a ≤ R a) → FOk s ext bs →
    List.Forall₂ (fun (q : Param × Own) o => q.1.mode.Typed q.2 o) (ps.zip (bs.map (·.own))) os' → bs.length = ps.length →
    ∃ s' cs bs' t, castAll s bs ps = .ok (s', cs, bs', t) ∧ Grows s s' ∧ Good s' (fun a => hold a cs + (hold a bs' + R a)) ∧ FOk s' ext cs ∧ (t = false → cs.map (·.own) = os') := by
  induction ps with
  | nil =>
    intro bs s ext R os' hg _ _ ht hl
    obtain rfl : bs = [] := List.length_eq_zero_iff.1 hl
    cases ht
    exact ⟨s, [], [], false, rfl, .refl s, hg.congr fun a => by simp, by intro x hx; simp at hx, fun _ => rfl⟩
  | cons p ps ih =>
    intro bs s ext R os' hg hR hF ht hl
    cases bs with
    | nil => simp at hl
    | cons b bs =>
      cases ht with
      | @cons _ o _ os' hp hps =>
        obtain ⟨s1, r, b', e1, gr1, g1, f1, h1⟩ := cast_ok (s := s) (b := b) (c := p.cast) (R := fun a => hold a bs + R a) (ext := ext) (hg.congr fun a => by simp only [hold_cons, hold_nil]; omega)
          (fun a => by have := hR a; omega) (fun x hx => hF x (by simp at hx; simp [hx])) hp
        cases r with
        | none =>
          refine ⟨s1, [], b' :: bs, true, by simp [castAll, e1], gr1, g1.congr fun a => ?_, by intro x hx; simp at hx, by simp⟩
          simp only [Option.toList_none, hold_cons, hold_nil]; omega
        | some c =>
          obtain ⟨s2, cs, bs', t, e2, gr2, g2, f2, h2⟩ := ih (bs := bs) (s := s1) (ext := ext) (R := fun a => hold a [c] + (hold a [b'] + R a)) (os' := os')
            (g1.congr fun a => by simp only [Option.toList_some]; omega) (fun a => by have := hR a; omega)
            (FOk.grows (fun x hx => hF x (by simp [hx])) gr1) hps (by simpa using hl)
          refine ⟨s2, c :: cs, b' :: bs', t, by simp [castAll, e1, e2], gr1.trans gr2, g2.congr fun a => ?_, (FOk.append (F := [c]) (FOk.grows f1 gr2) f2), fun ht => ?_⟩
          · simp only [hold_cons, hold_nil]; omega
          · rcases h1 with h1 | h1
            · cases h1
            · simp only [Option.map_some, Option.some.injEq] at h1
              simp [h1, h2 ht]

/-- The end of a function, seen by its caller. -/
structure Done (s s' : Store) (F' : List Slot) (e : Exit) (ext : Nat → Nat) (r : Option Own) : Prop where
  good : Good s' fun a => hold a F' + (hold a e.slots + ext a)
  grows : Grows s s'
  ok : FOk s' (fun _ => 0) e.slots
  typed : ∀ x, e = .ret x → x.map (·.own) = r

theorem Done.grown {s s1 s' : Store} {F' : List Slot} {e : Exit} {ext : Nat → Nat} {r : Option Own} (h : Done s1 s' F' e ext r) (hg : Grows s s1) : Done s s' F' e ext r :=
  ⟨h.good, hg.trans h.grows, h.ok, h.typed⟩

/-- Well-typed code runs. -/
theorem exec_ok {os : List Own} {r : Option Own} {c : Code} (h : c.Typed os r) : ∀ {s : Store} {F : List Slot} {ext : Nat → Nat}, Good s (fun a => hold a F + ext a) → FOk s ext F →
    F.map (·.own) = os → ∃ s' F' e, exec c s F = .ok (s', F', e) ∧ Done s s' F' e ext r := by
  induction h with
  | ret => exact fun {s F ext} hg hF _ => ⟨s, F, .ret none, rfl, hg.congr fun a => by simp [Exit.slots], .refl s, by intro x hx; simp [Exit.slots] at hx, by simp⟩
  | @retOwner os i o hi ho =>
    intro s F ext hg hF hos
    obtain ⟨x, hx, rfl⟩ := get_of_own hos hi
    refine ⟨s, F.set i x.emptied, .ret (some x), by simp [exec, hx], hg.congr fun a => ?_, .refl s, ?_, by simp⟩
    · have := hold_move a hx
      simp only [Exit.slots]; omega
    · intro y hy a ha
      simp only [Exit.slots, List.mem_singleton] at hy
      subst hy
      obtain ⟨_, h2⟩ := hF.get hx y (by simp) a ha
      exact ⟨by simp [ho], h2⟩
  | throw => exact fun {s F ext} hg hF _ => ⟨s, F, .threw, rfl, hg.congr fun a => by simp [Exit.slots], .refl s, by intro x hx; simp [Exit.slots] at hx, by simp⟩
  | @use os r i o k hi _ ih =>
    intro s F ext hg hF hos
    obtain ⟨x, hx, rfl⟩ := get_of_own hos hi
    obtain ⟨s', F', e, he, hd⟩ := ih hg hF hos
    refine ⟨s', F', e, ?_, hd⟩
    cases hobj : x.obj with
    | none => simp [exec, hx, hobj, he]
    | some a =>
      have hpos : 0 < hold a F + ext a := by
        cases hown : x.own.isOwner with
        | false => have := (hF.get hx x (by simp) a hobj).1 hown; omega
        | true => have := hold_pos (List.mem_of_getElem? hx) hown hobj; omega
      have := hg.alive hpos
      simp [exec, hx, hobj, this, he]
  | @keep os r i o k hi ho _ ih =>
    intro s F ext hg hF hos
    obtain ⟨x, hx, rfl⟩ := get_of_own hos hi
    cases hobj : x.obj with
    | none =>
      obtain ⟨s', F', e, he, hd⟩ := ih hg hF hos
      exact ⟨s', F', e, by simp [exec, hx, hobj, he], hd⟩
    | some a =>
      have hX := hF.get hx x (by simp) a hobj
      have hpos : 0 < hold a F + ext a := by
        cases hown : x.own.isOwner with
        | false => have := hX.1 hown; omega
        | true => have := hold_pos (List.mem_of_getElem? hx) hown hobj; omega
      obtain ⟨s1, e1, g1, gr1, hl1⟩ := hg.acquire hpos (hX.2.1 ho)
      have g2 : Good { s1 with globals := ⟨.shared, some a⟩ :: s1.globals } (fun a => hold a F + ext a) := by
        refine ⟨fun b => ?_, g1.gone, g1.nodup, g1.fresh⟩
        have := g1.count b
        have hsh : Own.shared.isOwner = true := rfl
        simp only [hold_cons, hsh, Bool.true_and, beq_iff_eq, Option.some.injEq] at this ⊢
        by_cases hb : b = a
        · subst hb; simp only [if_true] at this ⊢; omega
        · simp only [hb, Ne.symm hb, if_false] at this ⊢; omega
      obtain ⟨s', F', e, he, hd⟩ := ih g2 (hF.grows gr1) hos
      exact ⟨s', F', e, by simp [exec, hx, hobj, e1, he], hd.grown gr1⟩
  | @take os r i o k hi ho _ ih =>
    intro s F ext hg hF hos
    obtain ⟨x, hx, rfl⟩ := get_of_own hos hi
    have g2 : Good { s with globals := x :: s.globals } (fun a => hold a (F.set i x.emptied) + ext a) := by
      refine ⟨fun b => ?_, hg.gone, hg.nodup, hg.fresh⟩
      have h1 := hg.count b
      have h2 := hold_move b hx
      simp only [hold_cons, hold_nil] at h2 ⊢
      omega
    obtain ⟨s', F', e, he, hd⟩ := ih g2 (hF.set (hF.get hx).emptied) ((set_own hx (emptied_own x)).trans hos)
    exact ⟨s', F', e, by simp [exec, hx, he], hd.grown ⟨Nat.le_refl _, fun _ _ => rfl⟩⟩
  | @reset os r i o k hi ho _ ih =>
    intro s F ext hg hF hos
    obtain ⟨x, hx, rfl⟩ := get_of_own hos hi
    obtain ⟨s1, e1, g1, gr1, _⟩ := Good.drop (s := s) (x := x) (T := fun a => hold a (F.set i x.emptied) + ext a) (hg.congr fun a => by have := hold_move a hx; omega)
    obtain ⟨s', F', e, he, hd⟩ := ih g1 ((hF.set (hF.get hx).emptied).grows gr1) ((set_own hx (emptied_own x)).trans hos)
    exact ⟨s', F', e, by simp [exec, hx, e1, he], hd.grown gr1⟩
  | @forget os r j k _ ih =>
    intro s F ext hg hF hos
    cases hj : s.globals[j]? with
    | none =>
      obtain ⟨s', F', e, he, hd⟩ := ih hg hF hos
      exact ⟨s', F', e, by simp [exec, hj, he], hd⟩
    | some x =>
      obtain ⟨s1, e1, g1, gr1, _⟩ := Good.drop (s := { s with globals := s.globals.eraseIdx j }) (x := x) (T := fun a => hold a F + ext a) ⟨fun b => by
        have h1 := hg.count b
        have h2 := hold_eraseIdx b hj
        simp only at h1 ⊢; omega, hg.gone, hg.nodup, hg.fresh⟩
      obtain ⟨s', F', e, he, hd⟩ := ih g1 (FOk.grows (s := s) hF gr1) hos
      exact ⟨s', F', e, by simp [exec, hj, e1, he], hd.grown gr1⟩
  | @make os r o k ho _ ih =>
    intro s F ext hg hF hos
    have hs : s.count s.next = 0 := hg.fresh _ (Nat.le_refl _)
    have gr : Grows s (s.make o).1 := ⟨Nat.le_succ _, fun a ha => by simp [Store.make, Nat.ne_of_lt ha]⟩
    have g1 : Good (s.make o).1 (fun a => hold a (F ++ [(s.make o).2]) + ext a) := by
      refine ⟨fun b => ?_, fun b => ?_, hg.nodup, fun b hb => ?_⟩
      · have := hg.count b
        simp only [Store.make, hold_append, hold_cons, hold_nil, ho, Bool.true_and, beq_iff_eq, Option.some.injEq]
        by_cases hb : b = s.next
        · subst hb; simp only [if_true]; omega
        · simp only [hb, Ne.symm hb, if_false]; omega
      · have := hg.gone b
        simp only [Store.make]
        by_cases hb : b = s.next
        · subst hb; simp [this]
        · simp only [hb, if_false, this]
          constructor
          · rintro ⟨h1, h2⟩; exact ⟨by omega, h2⟩
          · rintro ⟨h1, h2⟩; exact ⟨by omega, h2⟩
      · simp only [Store.make] at hb ⊢
        have hne : b ≠ s.next := by omega
        simp only [hne, if_false]
        exact hg.fresh b (by omega)
    obtain ⟨s', F', e, he, hd⟩ := ih g1 ((hF.grows gr).append (by
      intro x hx a ha
      simp only [List.mem_singleton] at hx
      subst hx
      simp only [Store.make, Option.some.injEq] at ha
      subst ha
      refine ⟨by simp [Store.make, ho], ?_, by simp [Store.make]⟩
      rintro (h | h) <;> simp only [Store.make] at h <;> subst h <;> simp [Store.make])) (by simp [hos, Store.make])
    exact ⟨s', F', e, by simp [exec, he], hd.grown gr⟩
  | @fails os r ps os' k h hp hm _ ih =>
    intro s F ext hg hF hos
    by_cases hn : (ps.any fun p => (F[p.arg.var]?.bind (·.obj)) = none) = true
    · obtain ⟨s', F', e, he, hd⟩ := ih hg hF hos
      exact ⟨s', F', e, by simp only [exec, hn, if_true, he], hd⟩
    · obtain ⟨s1, as, F1, e1, g1, f1, ho1, gr1, fa, hz, hl⟩ := passAll_ok hg (fun _ => Nat.le_refl _) hF hos hp hm
      obtain ⟨s2, e2, g2, gr2, _⟩ := Good.dropAll (xs := as.reverse) (g1.congr fun a => by rw [hold_reverse])
      obtain ⟨s3, e3, g3, gr3, _⟩ := Good.dropAll (xs := (as.map Slot.emptied).reverse) (g2.congr fun a => by rw [hold_reverse, hold_map_emptied, Nat.zero_add])
      obtain ⟨s', F', e, he, hd⟩ := ih g3 (f1.grows (gr2.trans gr3)) ho1
      exact ⟨s', F', e, by simp only [exec, hn, e1, e2, e3, Res.ok_bind, he]; rfl, hd.grown (gr1.trans (gr2.trans gr3))⟩
  | @call os r ps os' r' c k h hp hm _ _ _ ihc ihk ihh =>
    intro s F ext hg hF hos
    by_cases hn : (ps.any fun p => (F[p.arg.var]?.bind (·.obj)) = none) = true
    · obtain ⟨s', F', e, he, hd⟩ := ihh hg hF hos
      exact ⟨s', F', e, by simp only [exec, hn, if_true, he], hd⟩
    · obtain ⟨s1, as, F1, e1, g1, f1, ho1, gr1, fa, hz, hl⟩ := passAll_ok hg (fun _ => Nat.le_refl _) hF hos hp hm
      obtain ⟨s2, cs, bs, t, e2, gr2, g2, f2, ht⟩ := castAll_ok g1 (fun _ => Nat.le_refl _) fa hz hl
      cases t with
      | true =>
        obtain ⟨s3, e3, g3, gr3, _⟩ := Good.dropAll (xs := cs.reverse) (g2.congr fun a => by rw [hold_reverse])
        obtain ⟨s4, e4, g4, gr4, _⟩ := Good.dropAll (xs := bs.reverse) (g3.congr fun a => by rw [hold_reverse])
        obtain ⟨s5, e5, g5, gr5, _⟩ := Good.dropAll (xs := (as.map Slot.emptied).reverse) (g4.congr fun a => by rw [hold_reverse, hold_map_emptied, Nat.zero_add])
        have gr := gr2.trans (gr3.trans (gr4.trans gr5))
        obtain ⟨s', F', e, he, hd⟩ := ihh g5 (f1.grows gr) ho1
        exact ⟨s', F', e, by simp only [exec, hn, e1, e2, e3, e4, e5, Res.ok_bind, he]; rfl, hd.grown (gr1.trans gr)⟩
      | false =>
        obtain ⟨s3, cs', e, e3, d3⟩ := ihc (ext := fun a => hold a bs + (hold a F1 + ext a)) g2 (f2.mono fun a ha => by omega) (ht rfl)
        obtain ⟨s4, e4, g4, gr4, _⟩ := Good.dropAll (xs := cs'.reverse) (d3.good.congr fun a => by rw [hold_reverse])
        obtain ⟨s5, e5, g5, gr5, _⟩ := Good.dropAll (xs := bs.reverse) (T := fun a => hold a e.slots + (hold a F1 + ext a)) (g4.congr fun a => by rw [hold_reverse]; omega)
        obtain ⟨s6, e6, g6, gr6, _⟩ := Good.dropAll (xs := (as.map Slot.emptied).reverse) (g5.congr fun a => by rw [hold_reverse, hold_map_emptied, Nat.zero_add])
        have gr' := gr4.trans (gr5.trans gr6)
        have gr := gr2.trans (d3.grows.trans gr')
        cases e with
        | threw =>
          obtain ⟨s', F', e, he, hd⟩ := ihh (g6.congr fun a => by simp [Exit.slots]) (f1.grows gr) ho1
          exact ⟨s', F', e, by simp only [exec, hn, e1, e2, e3, e4, e5, e6, Res.ok_bind, he]; rfl, hd.grown (gr1.trans gr)⟩
        | ret x =>
          have hr := d3.typed x rfl
          cases x with
          | none =>
            obtain ⟨s', F', e, he, hd⟩ := ihk (g6.congr fun a => by simp [Exit.slots]) (f1.grows gr) (by simp [ho1, ← hr])
            exact ⟨s', F', e, by simp only [exec, hn, e1, e2, e3, e4, e5, e6, Res.ok_bind, he]; rfl, hd.grown (gr1.trans gr)⟩
          | some x =>
            obtain ⟨s', F', e, he, hd⟩ := ihk (F := F1 ++ [x]) (g6.congr fun a => by simp only [Exit.slots, hold_append]; omega)
              ((f1.grows gr).append ((d3.ok.grows gr').mono fun a ha => absurd ha (Nat.lt_irrefl 0))) (by simp [ho1, ← hr])
            exact ⟨s', F', e, by simp only [exec, hn, e1, e2, e3, e4, e5, e6, Res.ok_bind, he]; rfl, hd.grown (gr1.trans gr)⟩

theorem pass_obj {s : Store} {x : Slot} {arg : Arg} {s' : Store} {a x' : Slot} (h : arg.pass s x = .ok (s', a, x')) : a.obj = x.obj ∧ (x' = x ∨ ∃ i, arg = .move i ∧ x' = x.emptied) := by
  cases arg with
  | object i => simp only [Arg.pass, Res.ok.injEq, Prod.mk.injEq] at h; exact ⟨by rw [← h.2.1], .inl h.2.2.symm⟩
  | ref i => simp only [Arg.pass, Res.ok.injEq, Prod.mk.injEq] at h; exact ⟨by rw [← h.2.1], .inl h.2.2.symm⟩
  | move i => simp only [Arg.pass, Res.ok.injEq, Prod.mk.injEq] at h; exact ⟨by rw [← h.2.1], .inr ⟨i, rfl, h.2.2.symm⟩⟩
  | copy i =>
    simp only [Arg.pass] at h
    cases hobj : x.obj with
    | none =>
      simp only [hobj, Res.ok.injEq, Prod.mk.injEq] at h
      exact ⟨by rw [← h.2.1], .inl h.2.2.symm⟩
    | some a =>
      simp only [hobj] at h
      cases ha : s.acquire a with
      | err e => simp [ha] at h
      | ub => simp [ha] at h
      | ok s1 =>
        simp only [ha, Res.ok_bind, Res.ok.injEq, Prod.mk.injEq] at h
        exact ⟨by rw [← h.2.1], .inl h.2.2.symm⟩

/-- The parameters of the call operator refer to the objects of the variables, and variables that are moved are empty. -/
theorem passAll_obj {ps : List Param} : ∀ {s : Store} {F : List Slot} {s' as F'}, passAll s F ps = .ok (s', as, F') → MovedOnce ps → (∀ p ∈ ps, ∀ i, p.arg = .move i → ∃ x, F[i]? = some x ∧ x.own.isOwner = true) →
    as.map (·.obj) = ps.map (fun p => F[p.arg.var]?.bind (·.obj)) ∧ ∀ p ∈ ps, ∀ i, p.arg = .move i → F'[i]?.bind (·.obj) = none := by
  induction ps with
  | nil =>
    intro s F s' as F' h _ _
    simp only [passAll, Res.ok.injEq, Prod.mk.injEq] at h
    exact ⟨by simp [← h.2.1], by simp⟩
  | cons p ps ih =>
    intro s F s' as F' h hm hown
    cases hx : F[p.arg.var]? with
    | none => simp [passAll, hx] at h
    | some x =>
      cases hp : p.arg.pass s x with
      | err e => simp [passAll, hx, hp] at h
      | ub => simp [passAll, hx, hp] at h
      | ok t =>
        obtain ⟨s1, a, x'⟩ := t
        cases hr : passAll s1 (F.set p.arg.var x') ps with
        | err e => simp [passAll, hx, hp, hr] at h
        | ub => simp [passAll, hx, hp, hr] at h
        | ok t =>
          obtain ⟨s2, as2, F2⟩ := t
          simp only [passAll, hx, hp, hr, Res.ofOption_some, Res.ok_bind, Res.ok.injEq, Prod.mk.injEq] at h
          obtain ⟨-, h2, rfl⟩ := h
          obtain ⟨ha, hx'⟩ := pass_obj hp
          have hm' : MovedOnce ps := by
            intro q hq i hi
            have h1 := hm q (List.mem_cons_of_mem _ hq) i hi
            have h2 : 0 < (ps.map fun q => q.arg.var).count i := List.count_pos_iff.2 (List.mem_map.2 ⟨q, hq, by rw [hi]; rfl⟩)
            rw [List.map_cons, List.count_cons] at h1
            omega
          have hsep : ∀ q ∈ ps, ∀ i, q.arg = .move i → p.arg.var ≠ i := by
            intro q hq i hi he
            have h1 := hm q (List.mem_cons_of_mem _ hq) i hi
            have h2 : 0 < (ps.map fun q => q.arg.var).count i := List.count_pos_iff.2 (List.mem_map.2 ⟨q, hq, by rw [hi]; rfl⟩)
            rw [List.map_cons, List.count_cons, he] at h1
            simp at h1
            omega
          have hobj : ∀ q ∈ ps, (F.set p.arg.var x')[q.arg.var]?.bind (·.obj) = F[q.arg.var]?.bind (·.obj) := by
            intro q hq
            rw [List.getElem?_set]
            split
            · rename_i heq
              rcases hx' with rfl | ⟨i, hi, rfl⟩
              · obtain ⟨hlt, h'⟩ := List.getElem?_eq_some_iff.1 hx
                rw [← heq, hx]
                simp [hlt]
              · have h1 := hm p List.mem_cons_self i hi
                have h2 : 0 < (ps.map fun q => q.arg.var).count i := List.count_pos_iff.2 (List.mem_map.2 ⟨q, hq, by rw [← heq, hi]; rfl⟩)
                rw [List.map_cons, List.count_cons, if_pos (by simp [hi, Arg.var])] at h1
                omega
            · rfl
          obtain ⟨i1, i2⟩ := ih hr hm' (fun q hq i hi => by
            rw [List.getElem?_set_ne (hsep q hq i hi)]
            exact hown q (List.mem_cons_of_mem _ hq) i hi)
          refine ⟨?_, fun q hq i hi => ?_⟩
          · rw [← h2, List.map_cons, List.map_cons, ha, hx, i1]
            simp only [Option.bind_some, List.cons.injEq, true_and]
            exact List.map_congr_left hobj
          · rcases List.mem_cons.1 hq with rfl | hq
            · have hne : ∀ q' ∈ ps, q'.arg ≠ .move i := by
                intro q' hq' hi'
                exact hsep q' hq' i hi' (by rw [hi]; rfl)
              rw [passAll_keeps hr i hne, List.getElem?_set]
              rcases hx' with rfl | ⟨j, hj, rfl⟩
              · obtain ⟨y, hy, hyo⟩ := hown q List.mem_cons_self i hi
                rw [hi] at hp
                simp only [Arg.pass, Res.ok.injEq, Prod.mk.injEq] at hp
                rw [hi] at hx
                obtain rfl : y = x' := by simpa [Arg.var, hy] using hx
                have : y.obj = none := by
                  rw [← hp.2.2]
                  simp [emptied_eq, hyo]
                rw [hi]
                obtain ⟨hlt, h'⟩ := List.getElem?_eq_some_iff.1 hy
                simp [Arg.var, hlt, this]
              · rw [hi] at hj
                cases hj
                obtain ⟨y, hy, hyo⟩ := hown q List.mem_cons_self i hi
                rw [hi] at hx
                obtain rfl : y = x := by simpa [Arg.var, hy] using hx
                rw [hi]
                obtain ⟨hlt, h'⟩ := List.getElem?_eq_some_iff.1 hy
                simp [Arg.var, hlt, emptied_eq, hyo]
            · exact i2 q hq i hi

theorem forall₂_left {α β : Type} {R : α → β → Prop} {l : List α} {l' : List β} (h : List.Forall₂ R l l') : ∀ x ∈ l, ∃ y, R x y := by
  induction h with
  | nil => simp
  | cons h _ ih => exact List.forall_mem_cons.2 ⟨⟨_, h⟩, ih⟩

/-- The destruction of variables does not depend on the global ones. -/
theorem dropAll_globals {s : Store} (G : List Slot) (xs : List Slot) {t : Store} (h : Store.dropAll { s with globals := G } xs = .ok t) :
    ∃ t', s.dropAll xs = .ok t' ∧ t'.gone = t.gone ∧ t'.next = t.next := by
  induction xs generalizing s with
  | nil =>
    simp only [Store.dropAll, Res.ok.injEq] at h
    exact ⟨s, rfl, by rw [← h], by rw [← h]⟩
  | cons x xs ih =>
    obtain ⟨o, _ | a⟩ := x
    · exact ih (s := s) h
    · cases ho : o.isOwner with
      | false =>
        simp only [Store.dropAll, Store.drop, owns_eq, ho, Bool.false_eq_true, if_false, Res.ok_bind] at h ⊢
        exact ih h
      | true =>
        by_cases hc : s.count a = 0
        · simp [Store.dropAll, Store.drop, owns_eq, ho, Store.release, hc] at h
        · simp only [Store.dropAll, Store.drop, owns_eq, ho, if_true, Store.release, hc, if_false, Res.ok_bind] at h ⊢
          exact ih (s := { s with count := fun b => if b = a then s.count a - 1 else s.count b, gone := if s.count a = 1 then a :: s.gone else s.gone }) h

/-- The parameters of the overrider refer to the objects of those of the thunk. -/
theorem castAll_obj {ps : List Param} : ∀ {bs : List Slot} {s : Store} {s' cs bs' t}, castAll s bs ps = .ok (s', cs, bs', t) → bs.length = ps.length → (∀ p ∈ ps, p.cast = .ok) →
    t = false ∧ cs.map (·.obj) = bs.map (·.obj) := by
  induction ps with
  | nil =>
    intro bs s s' cs bs' t h hl _
    obtain rfl : bs = [] := List.length_eq_zero_iff.1 hl
    simp only [castAll, Res.ok.injEq, Prod.mk.injEq] at h
    exact ⟨h.2.2.2.symm, by simp [← h.2.1]⟩
  | cons p ps ih =>
    intro bs s s' cs bs' t h hl hok
    cases bs with
    | nil => simp at hl
    | cons b bs =>
      have hc : ∀ s1 r b', cast s b p.mode p.cast = .ok (s1, r, b') → ∃ c, r = some c ∧ c.obj = b.obj := by
        intro s1 r b' e
        rw [hok p List.mem_cons_self] at e
        revert e
        cases p.mode with
        | object => intro e; simp only [cast, Res.ok.injEq, Prod.mk.injEq] at e; exact ⟨_, e.2.1.symm, rfl⟩
        | same => intro e; simp only [cast, Res.ok.injEq, Prod.mk.injEq] at e; exact ⟨_, e.2.1.symm, rfl⟩
        | moved => intro e; simp only [cast, Res.ok.injEq, Prod.mk.injEq] at e; exact ⟨_, e.2.1.symm, rfl⟩
        | temporary =>
          intro e
          simp only [cast] at e
          cases hobj : b.obj with
          | none => simp only [hobj, Res.ok.injEq, Prod.mk.injEq] at e; exact ⟨_, e.2.1.symm, rfl⟩
          | some a =>
            simp only [hobj] at e
            cases ha : s.acquire a with
            | err e' => simp [ha] at e
            | ub => simp [ha] at e
            | ok s1 => simp only [ha, Res.ok_bind, Res.ok.injEq, Prod.mk.injEq] at e; exact ⟨_, e.2.1.symm, rfl⟩
        | copied =>
          intro e
          simp only [cast] at e
          cases hobj : b.obj with
          | none => simp only [hobj, Res.ok.injEq, Prod.mk.injEq] at e; exact ⟨_, e.2.1.symm, rfl⟩
          | some a =>
            simp only [hobj] at e
            cases ha : s.acquire a with
            | err e' => simp [ha] at e
            | ub => simp [ha] at e
            | ok s1 => simp only [ha, Res.ok_bind, Res.ok.injEq, Prod.mk.injEq] at e; exact ⟨_, e.2.1.symm, rfl⟩
      cases e1 : cast s b p.mode p.cast with
      | err e => simp [castAll, e1] at h
      | ub => simp [castAll, e1] at h
      | ok u =>
        obtain ⟨s1, r, b'⟩ := u
        obtain ⟨c, rfl, hco⟩ := hc s1 r b' e1
        cases e2 : castAll s1 bs ps with
        | err e => simp [castAll, e1, e2] at h
        | ub => simp [castAll, e1, e2] at h
        | ok u =>
          obtain ⟨s2, cs2, bs2, t2⟩ := u
          simp only [castAll, e1, e2, Res.ok_bind, Res.ok.injEq, Prod.mk.injEq] at h
          obtain ⟨i1, i2⟩ := ih e2 (by simpa using hl) (fun q hq => hok q (List.mem_cons_of_mem _ hq))
          exact ⟨by rw [← h.2.2.2, i1], by simp [← h.2.1, hco, i2]⟩

end OpenMethod.Ownership
