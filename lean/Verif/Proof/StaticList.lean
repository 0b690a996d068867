import Verif.SpecList
import Mathlib.Data.List.Nodup

/-! # `static_list` represents a sequence -/

namespace OpenMethod

open Spec

/-- The links represent the sequence `l`. -/
structure SList.Rep (s : SList) (l : List Nat) : Prop where
  nodup : l.Nodup
  first : s.first = l.head?
  out : ∀ x, x ∉ l → s.prev x = none ∧ s.next x = none
  next : ∀ a x b, l = a ++ x :: b → s.next x = b.head?
  prev : ∀ a x b, l = a ++ x :: b → s.prev x = a.getLast?.or l.getLast?

namespace SList

theorem init_rep : init.Rep [] :=
  ⟨List.nodup_nil, rfl, fun _ _ => ⟨rfl, rfl⟩, fun a x b h => by simp at h, fun a x b h => by simp at h⟩

theorem Rep.last {s : SList} {f : Nat} {l : List Nat} (h : s.Rep (f :: l)) : s.prev f = (f :: l).getLast? := by
  rw [h.prev [] f l rfl]; simp

theorem pushBack_rep {s : SList} {l : List Nat} (h : s.Rep l) {x : Nat} (hx : x ∉ l) :
    ∃ s', s.pushBack x = .ok s' ∧ s'.Rep (l ++ [x]) := by
  obtain ⟨ho1, ho2⟩ := h.out x hx
  unfold pushBack
  rw [ho1, ho2, h.first]
  simp only [ne_eq, not_true_eq_false, if_false]
  cases l with
  | nil =>
    refine ⟨_, rfl, ?_⟩
    refine ⟨by simp, rfl, ?_, ?_, ?_⟩
    · intro y hy
      simp only [List.nil_append, List.mem_singleton] at hy
      have := h.out y (by simp)
      simp [Function.update, hy, this]
    · intro a y b e
      obtain ⟨rfl, e'⟩ : a = [] ∧ [x] = y :: b := by cases a <;> simp_all
      obtain ⟨rfl, rfl⟩ : x = y ∧ [] = b := by simpa using e'
      exact ho2
    · intro a y b e
      obtain ⟨rfl, e'⟩ : a = [] ∧ [x] = y :: b := by cases a <;> simp_all
      obtain ⟨rfl, rfl⟩ : x = y ∧ [] = b := by simpa using e'
      simp
  | cons f r =>
    obtain ⟨t, ht⟩ : ∃ t, (f :: r).getLast? = some t := ⟨_, List.getLast?_eq_some_getLast (by simp)⟩
    have htm : t ∈ f :: r := List.mem_of_getLast? ht
    have htx : t ≠ x := by rintro rfl; exact hx htm
    have hfx : f ≠ x := by rintro rfl; exact hx (by simp)
    have hlast := h.last
    rw [ht] at hlast
    have hf : s.first = some f := h.first
    simp only [getPrev, hf, List.head?_cons, hlast, Res.ok_bind, setNext, setPrev]
    refine ⟨_, rfl, ?_⟩
    have hnd : (f :: r ++ [x]).Nodup := by
      rw [List.nodup_append]
      refine ⟨h.nodup, by simp, ?_⟩
      intro a ha b hb
      simp at hb; subst hb
      rintro rfl; exact hx ha
    have hsplit : ∀ a y b, f :: r ++ [x] = a ++ y :: b → (b = [] ∧ y = x ∧ a = f :: r) ∨ ∃ b', b = b' ++ [x] ∧ f :: r = a ++ y :: b' := by
      intro a y b e
      rcases List.eq_nil_or_concat b with rfl | ⟨b', z, rfl⟩
      · have := List.append_inj' e (by simp)
        exact .inl ⟨rfl, by simpa using this.2.symm, this.1.symm⟩
      · have e' : f :: r ++ [x] = (a ++ y :: b') ++ [z] := by rw [e]; simp
        have := List.append_inj' e' (by simp)
        simp at this
        exact .inr ⟨b', by simp [this.2], this.1⟩
    refine ⟨hnd, by simp, ?_, ?_, ?_⟩
    · intro y hy
      simp only [List.mem_append, List.mem_singleton, not_or] at hy
      have hy1 : y ≠ f := by rintro rfl; exact hy.1 (by simp)
      have hy2 : y ≠ t := by rintro rfl; exact hy.1 htm
      have := h.out y hy.1
      simp [Function.update, hy.2, hy1, hy2, this]
    · intro a y b e
      rcases hsplit a y b e with ⟨rfl, rfl, rfl⟩ | ⟨b', rfl, e'⟩
      · simp [Function.update, htx.symm, ho2]
      · by_cases hyt : y = t
        · subst hyt
          have hb : b' = [] := by
            rcases List.eq_nil_or_concat b' with rfl | ⟨b'', z, rfl⟩
            · rfl
            · exfalso
              rw [e'] at ht
              have hz : z = y := by simpa [List.getLast?_append, List.getLast?_cons] using ht
              subst hz
              have hnd := h.nodup
              rw [e', List.nodup_append] at hnd
              simp at hnd
          subst hb
          simp
        · have hb : b' ≠ [] := by
            rintro rfl
            rw [e'] at ht
            simp at ht
            exact hyt ht
          have := h.next a y b' e'
          simp only [Function.update, hyt, eq_rec_constant, dite_eq_ite, if_false, this]
          cases b' <;> simp_all
    · intro a y b e
      rcases hsplit a y b e with ⟨rfl, rfl, rfl⟩ | ⟨b', rfl, e'⟩
      · simp [Function.update, hfx.symm, ht]
      · have hyx : y ≠ x := by
          rintro rfl; apply hx; rw [e']; simp
        by_cases hyf : y = f
        · subst hyf
          have ha : a = [] := by
            cases a with
            | nil => rfl
            | cons z a =>
              exfalso
              obtain ⟨rfl, e'⟩ : y = z ∧ r = a ++ y :: b' := by simpa using e'
              have hnd := h.nodup
              rw [e'] at hnd
              simp at hnd
          subst ha
          simp [Function.update, List.getLast?_cons]
        · have ha : a ≠ [] := by
            rintro rfl
            simp at e'
            exact hyf e'.1.symm
          obtain ⟨z, hz⟩ : ∃ z, a.getLast? = some z := ⟨_, List.getLast?_eq_some_getLast ha⟩
          have := h.prev a y b' e'
          simp [Function.update, hyx, hyf, this, hz]

theorem split_remove {a b a' b' : List Nat} {y : Nat} (h : a ++ b = a' ++ y :: b') (x : Nat) :
    (∃ c, a = a' ++ y :: c ∧ b' = c ++ b ∧ a ++ x :: b = a' ++ y :: (c ++ x :: b)) ∨
    ∃ c, a' = a ++ c ∧ b = c ++ y :: b' ∧ a ++ x :: b = (a ++ x :: c) ++ y :: b' := by
  rcases List.append_eq_append_iff.1 h with ⟨c, h1, h2⟩ | ⟨c, h1, h2⟩
  · exact .inr ⟨c, h1, h2, by rw [h2]; simp⟩
  · cases c with
    | nil =>
      simp at h1 h2
      exact .inr ⟨[], by simp [h1], by simp [← h2], by rw [← h2]; simp⟩
    | cons z c =>
      obtain ⟨rfl, rfl⟩ : y = z ∧ b' = c ++ b := by simpa using h2
      exact .inl ⟨c, h1, rfl, by rw [h1]; simp⟩

theorem remove_rep {s : SList} {a b : List Nat} {x : Nat} (h : s.Rep (a ++ x :: b)) :
    ∃ s', s.remove x = .ok s' ∧ s'.Rep (a ++ b) := by
  have hnd := h.nodup
  have hxa : x ∉ a := by
    rw [List.nodup_append] at hnd
    intro hx; exact hnd.2.2 x hx x (by simp) rfl
  have hxb : x ∉ b := by
    rw [List.nodup_append] at hnd
    have := hnd.2.1
    rw [List.nodup_cons] at this; exact this.1
  have hab : (a ++ b).Nodup := hnd.sublist (List.Sublist.append_left (List.sublist_cons_self x b) a)
  have hdis : ∀ y ∈ a, y ∉ b := by
    intro y ha hb
    rw [List.nodup_append] at hab
    exact hab.2.2 y ha y hb rfl
  have hn := h.next a x b rfl
  have hp := h.prev a x b rfl
  have hout : ∀ y, y ≠ x → y ∉ a ++ b → s.prev y = none ∧ s.next y = none := by
    intro y hy hm
    refine h.out y ?_
    simp only [List.mem_append, List.mem_cons, not_or] at hm ⊢
    exact ⟨hm.1, hy, hm.2⟩
  have hfirst := h.first
  unfold remove
  -- the four cases
  rcases List.eq_nil_or_concat b with rfl | ⟨b0, t, hb⟩
  · cases a with
    | nil =>
      have hf : s.first = some x := by simpa using hfirst
      have hl : s.prev x = some x := by simpa using hp
      simp only [getPrev, hf, hl, Res.ok_bind, setPrev, setNext, if_true]
      refine ⟨_, rfl, List.nodup_nil, rfl, ?_, fun a y b h => by simp at h, fun a y b h => by simp at h⟩
      intro y _
      by_cases hy : y = x
      · subst hy; simp
      · have := hout y hy (by simp)
        simp [Function.update, hy, this]
    | cons f a =>
      have hf : s.first = some f := by simpa using hfirst
      have hfx : f ≠ x := by rintro rfl; simp at hxa
      have hl : s.prev f = some x := by
        have := h.prev [] f (a ++ [x]) (by simp)
        rw [this]; simp [List.getLast?_append, List.getLast?_cons]
      obtain ⟨q, hq⟩ : ∃ q, (f :: a).getLast? = some q := ⟨_, List.getLast?_eq_some_getLast (by simp)⟩
      have hqm : q ∈ f :: a := List.mem_of_getLast? hq
      have hqx : q ≠ x := by rintro rfl; exact hxa hqm
      rw [hq] at hp
      have hp' : s.prev x = some q := by simpa using hp
      have hne : ¬ (some x = some f) := by simpa using fun e => hfx e.symm
      simp only [getPrev, hf, hl, hp', Res.ok_bind, setPrev, setNext, if_true, if_neg hne]
      refine ⟨_, rfl, hab, by simp, ?_, ?_, ?_⟩
      · intro y hy
        rw [List.append_nil] at hy
        have hyq : y ≠ q := by rintro rfl; exact hy hqm
        have hyf : y ≠ f := by rintro rfl; exact hy (by simp)
        by_cases hyx : y = x
        · subst hyx; simp [Function.update, hyq, hyf]
        · have := hout y hyx (by simpa using hy)
          simp [Function.update, hyx, hyq, hyf, this]
      · intro a' y b' e
        have hyx : y ≠ x := by rintro rfl; apply hxa; rw [List.append_nil] at e; rw [e]; simp
        rcases split_remove e x with ⟨c, h1, h2, h3⟩ | ⟨c, h1, h2, h3⟩
        · have := h.next _ _ _ h3
          by_cases hyq : y = q
          · subst hyq
            have hc : c = [] := by
              rcases List.eq_nil_or_concat c with rfl | ⟨c', z, rfl⟩
              · rfl
              · exfalso
                rw [h1] at hq
                have hz : z = y := by simpa [List.getLast?_append, List.getLast?_cons] using hq
                subst hz
                rw [List.append_nil, h1, List.nodup_append] at hab
                simp at hab
            subst hc
            simp [h2]
          · have hc : c ≠ [] := by
              rintro rfl
              rw [h1] at hq
              simp at hq
              exact hyq hq
            simp only [Function.update, hyx, hyq, eq_rec_constant, dite_eq_ite, if_false, this, h2]
            cases c <;> simp_all
        · simp at h2
      · intro a' y b' e
        have hyx : y ≠ x := by rintro rfl; apply hxa; rw [List.append_nil] at e; rw [e]; simp
        rcases split_remove e x with ⟨c, h1, h2, h3⟩ | ⟨c, h1, h2, h3⟩
        · have := h.prev _ _ _ h3
          by_cases hyf : y = f
          · subst hyf
            have ha : a' = [] := by
              cases a' with
              | nil => rfl
              | cons z a' =>
                exfalso
                obtain ⟨rfl, e'⟩ : y = z ∧ a = a' ++ y :: c := by simpa using h1
                rw [List.append_nil, e'] at hab
                simp at hab
            subst ha
            simp [Function.update, hq]
          · have ha : a' ≠ [] := by
              rintro rfl
              simp at h1
              exact hyf h1.1.symm
            obtain ⟨z, hz⟩ : ∃ z, a'.getLast? = some z := ⟨_, List.getLast?_eq_some_getLast ha⟩
            simp [Function.update, hyx, hyf, this, hz]
        · simp at h2
  · have htm : t ∈ b := by rw [hb]; simp
    have htx : t ≠ x := by rintro rfl; exact hxb htm
    have hbl : b.getLast? = some t := by rw [hb]; simp
    have hne0 : ¬ (some x = some t) := by simpa using fun e => htx e.symm
    obtain ⟨u, b1, hb1⟩ : ∃ u b1, b = u :: b1 := by
      cases b with
      | nil => simp at htm
      | cons u b1 => exact ⟨u, b1, rfl⟩
    have hum : u ∈ b := by rw [hb1]; simp
    have hux : u ≠ x := by rintro rfl; exact hxb hum
    have hn' : s.next x = some u := by rw [hn, hb1]; rfl
    have hall : (a ++ x :: b).getLast? = some t := by
      rw [hb]; simp [List.getLast?_append, List.getLast?_cons]
    cases a with
    | nil =>
      have hf : s.first = some x := by simpa using hfirst
      have hl : s.prev x = some t := by rw [hp, hall]; simp
      simp only [getPrev, hf, hl, Res.ok_bind, setPrev, setNext, if_neg hne0, if_true, hn']
      refine ⟨_, rfl, hab, by simp [hb1], ?_, ?_, ?_⟩
      · intro y hy
        rw [List.nil_append] at hy
        have hyu : y ≠ u := by rintro rfl; exact hy hum
        by_cases hyx : y = x
        · subst hyx; simp [Function.update, hyu]
        · have := hout y hyx (by simpa using hy)
          simp [Function.update, hyx, hyu, this]
      · intro a' y b' e
        have hyx : y ≠ x := by rintro rfl; apply hxb; rw [List.nil_append] at e; rw [e]; simp
        rcases split_remove e x with ⟨c, h1, h2, h3⟩ | ⟨c, h1, h2, h3⟩
        · simp at h1
        · have := h.next _ _ _ h3
          simp [Function.update, hyx, this]
      · intro a' y b' e
        have hyx : y ≠ x := by rintro rfl; apply hxb; rw [List.nil_append] at e; rw [e]; simp
        rcases split_remove e x with ⟨c, h1, h2, h3⟩ | ⟨c, h1, h2, h3⟩
        · simp at h1
        · have := h.prev _ _ _ h3
          by_cases hyu : y = u
          · subst hyu
            have hc : c = [] := by
              cases c with
              | nil => rfl
              | cons z c =>
                exfalso
                rw [hb1] at h2
                obtain ⟨rfl, e'⟩ : y = z ∧ b1 = c ++ y :: b' := by simpa using h2
                rw [List.nil_append, hb1, e'] at hab
                simp at hab
            subst hc
            simp at h1
            subst h1
            simp [Function.update, hbl]
          · have hc : c ≠ [] := by
              rintro rfl
              rw [hb1] at h2
              simp at h2
              exact hyu h2.1.symm
            obtain ⟨z, hz⟩ : ∃ z, c.getLast? = some z := ⟨_, List.getLast?_eq_some_getLast hc⟩
            have ha' : a'.getLast? = some z := by rw [h1]; simpa using hz
            have hcc : ([] ++ x :: c).getLast? = some z := by
              rw [List.nil_append, List.getLast?_cons, hz]; rfl
            rw [hcc] at this
            simp [Function.update, hyx, hyu, this, ha']
    | cons f a =>
      have hf : s.first = some f := by simpa using hfirst
      have hfx : f ≠ x := by rintro rfl; simp at hxa
      have hne : ¬ (some x = some f) := by simpa using fun e => hfx e.symm
      have hl : s.prev f = some t := by
        have := h.prev [] f (a ++ x :: b) (by simp)
        rw [this]; simpa using hall
      obtain ⟨q, hq⟩ : ∃ q, (f :: a).getLast? = some q := ⟨_, List.getLast?_eq_some_getLast (by simp)⟩
      have hqm : q ∈ f :: a := List.mem_of_getLast? hq
      have hqx : q ≠ x := by rintro rfl; exact hxa hqm
      have hp' : s.prev x = some q := by rw [hp, hq]; rfl
      simp only [getPrev, hf, hl, hp', hn', Res.ok_bind, setPrev, setNext, if_neg hne0, if_neg hne]
      have hab' : (f :: a ++ b).getLast? = some t := by
        rw [List.getLast?_append, hbl]; rfl
      refine ⟨_, rfl, hab, by simp, ?_, ?_, ?_⟩
      · intro y hy
        have hyq : y ≠ q := by rintro rfl; exact hy (List.mem_append_left _ hqm)
        have hyu : y ≠ u := by rintro rfl; exact hy (List.mem_append_right _ hum)
        by_cases hyx : y = x
        · subst hyx; simp [Function.update, hyq, hyu]
        · have := hout y hyx hy
          simp [Function.update, hyx, hyq, hyu, this]
      · intro a' y b' e
        have hym : y ∈ f :: a ++ b := by rw [e]; simp
        have hyx : y ≠ x := by
          rintro rfl
          rcases List.mem_append.1 hym with h | h
          · exact hxa h
          · exact hxb h
        rcases split_remove e x with ⟨c, h1, h2, h3⟩ | ⟨c, h1, h2, h3⟩
        · have := h.next _ _ _ h3
          by_cases hyq : y = q
          · subst hyq
            have hc : c = [] := by
              rcases List.eq_nil_or_concat c with rfl | ⟨c', z, rfl⟩
              · rfl
              · exfalso
                rw [h1] at hq
                have hz : z = y := by simpa [List.getLast?_append, List.getLast?_cons] using hq
                subst hz
                rw [h1, List.nodup_append] at hab
                have := hab.1
                rw [List.nodup_append] at this
                simp at this
            subst hc
            simp [h2, hb1]
          · have hc : c ≠ [] := by
              rintro rfl
              rw [h1] at hq
              simp at hq
              exact hyq hq
            simp only [Function.update, hyx, hyq, eq_rec_constant, dite_eq_ite, if_false, this, h2]
            cases c <;> simp_all
        · have hyq : y ≠ q := by
            rintro rfl
            exact hdis y hqm (by rw [h2]; simp)
          have := h.next _ _ _ h3
          simp [Function.update, hyx, hyq, this]
      · intro a' y b' e
        have hym : y ∈ f :: a ++ b := by rw [e]; simp
        have hyx : y ≠ x := by
          rintro rfl
          rcases List.mem_append.1 hym with h | h
          · exact hxa h
          · exact hxb h
        rcases split_remove e x with ⟨c, h1, h2, h3⟩ | ⟨c, h1, h2, h3⟩
        · have hyu : y ≠ u := by
            rintro rfl
            exact hdis y (by rw [h1]; simp) hum
          have := h.prev _ _ _ h3
          rw [hall] at this
          rw [hab']
          simp [Function.update, hyx, hyu, this]
        · have := h.prev _ _ _ h3
          by_cases hyu : y = u
          · subst hyu
            have hc : c = [] := by
              cases c with
              | nil => rfl
              | cons z c =>
                exfalso
                rw [hb1] at h2
                obtain ⟨rfl, e'⟩ : y = z ∧ b1 = c ++ y :: b' := by simpa using h2
                rw [hb1, e', List.nodup_append] at hab
                have := hab.2.1
                simp at this
            subst hc
            rw [List.append_nil] at h1
            rw [h1, hq]
            simp [Function.update]
          · have hc : c ≠ [] := by
              rintro rfl
              rw [hb1] at h2
              simp at h2
              exact hyu h2.1.symm
            obtain ⟨z, hz⟩ : ∃ z, c.getLast? = some z := ⟨_, List.getLast?_eq_some_getLast hc⟩
            have ha' : a'.getLast? = some z := by rw [h1, List.getLast?_append, hz]; rfl
            have hcc : (f :: a ++ x :: c).getLast? = some z := by
              rw [List.getLast?_append, List.getLast?_cons, hz]; rfl
            rw [hcc] at this
            simp [Function.update, hyx, hyu, this, ha']

/-! ## Iteration and `clear` -/

theorem visit_rep {s : SList} {l : List Nat} (h : s.Rep l) (b a : List Nat) (e : l = a ++ b) (fuel : Nat) (hf : b.length ≤ fuel) :
    visit fuel s b.head? = some b := by
  induction b generalizing a fuel with
  | nil => cases fuel <;> rfl
  | cons x b ih =>
    obtain ⟨fuel, rfl⟩ : ∃ k, fuel = k + 1 := ⟨fuel - 1, by simp at hf; omega⟩
    have hn := h.next a x b e
    have := ih (a ++ [x]) (by rw [e]; simp) fuel (by simpa using hf)
    simp only [List.head?_cons, visit, hn, this, Option.map_some]

theorem iterate_rep {s : SList} {l : List Nat} (h : s.Rep l) (fuel : Nat) (hf : l.length ≤ fuel) : s.iterate fuel = some l := by
  unfold iterate
  rw [h.first]
  exact visit_rep h l [] rfl fuel hf

theorem clearFrom_ok (b : List Nat) (s : SList) (fuel : Nat) (hf : b.length ≤ fuel) (hnd : b.Nodup)
    (hn : ∀ a x c, b = a ++ x :: c → s.next x = c.head?) (hout : ∀ x, x ∉ b → s.prev x = none ∧ s.next x = none) :
    ∃ s', clearFrom fuel s b.head? = some s' ∧ s'.first = s.first ∧ ∀ x, s'.prev x = none ∧ s'.next x = none := by
  induction b generalizing s fuel with
  | nil => exact ⟨s, by cases fuel <;> rfl, rfl, fun x => hout x (by simp)⟩
  | cons y b ih =>
    obtain ⟨fuel, rfl⟩ : ∃ k, fuel = k + 1 := ⟨fuel - 1, by simp at hf; omega⟩
    have h0 := hn [] y b rfl
    rw [List.nodup_cons] at hnd
    simp only [List.head?_cons, clearFrom, h0]
    refine ih _ fuel (by simpa using hf) hnd.2 ?_ ?_
    · intro a x c e
      have hxy : x ≠ y := by rintro rfl; apply hnd.1; rw [e]; simp
      have := hn (y :: a) x c (by rw [e]; rfl)
      simp [Function.update, hxy, this]
    · intro x hx
      by_cases hxy : x = y
      · subst hxy; simp
      · have := hout x (by simp [hxy, hx])
        simp [Function.update, hxy, this]

theorem clear_rep {s : SList} {l : List Nat} (h : s.Rep l) (fuel : Nat) (hf : l.length ≤ fuel) : ∃ s', s.clear fuel = some s' ∧ s'.Rep [] := by
  obtain ⟨s', h1, h2, h3⟩ := clearFrom_ok l { s with first := none } fuel hf h.nodup h.next h.out
  refine ⟨s', by unfold clear; rw [h.first]; exact h1, List.nodup_nil, h2, fun x _ => h3 x, fun a x b e => by simp at e, fun a x b e => by simp at e⟩

theorem step_rep {s : SList} {l l' : List Nat} {op : ListOp} (h : s.Rep l) (hs : SeqStep l op l') (fuel : Nat) (hf : l.length ≤ fuel) :
    ∃ s', s.step fuel op = .ok s' ∧ s'.Rep l' := by
  cases hs with
  | push hx => exact pushBack_rep h hx
  | remove => exact remove_rep h
  | clear =>
    obtain ⟨s', h1, h2⟩ := clear_rep h fuel hf
    exact ⟨s', by simp [step, h1], h2⟩

theorem run_rep {s : SList} {l l' : List Nat} {ops : List ListOp} (h : s.Rep l) (hs : History l ops l') (fuel : Nat)
    (hf : l.length + pushes ops ≤ fuel) : ∃ s', s.run fuel ops = .ok s' ∧ s'.Rep l' ∧ l'.length ≤ fuel := by
  induction hs generalizing s with
  | nil => exact ⟨s, rfl, h, by omega⟩
  | @cons l1 l2 l3 op ops hs _ ih =>
    obtain ⟨s', h1, h2⟩ := step_rep h hs fuel (by omega)
    have hl : l2.length + pushes ops ≤ fuel := by
      unfold pushes at *
      rw [List.countP_cons] at hf
      cases hs with
      | push hx => simp at hf ⊢; omega
      | remove => simp at hf ⊢; omega
      | clear => simp at hf ⊢; omega
    obtain ⟨s'', h3, h4⟩ := ih h2 hl
    refine ⟨s'', ?_, h4⟩
    unfold run at *
    rw [List.foldlM_cons, h1, Res.ok_bind, h3]

end SList

end OpenMethod
