import Verif.SpecConversions
import Verif.Proof.Params

/-! # Overload resolution, evaluated -/

set_option linter.unusedSimpArgs false

namespace OpenMethod

namespace Cpp

variable {E : Cpp} {t : Elem} {r : Nat}

theorem pointerFrom_iff (hw : E.hier.WF) {u : Elem} : E.pointerFrom t u = true ↔ E.PointerConv u t := by
  rw [pointerFrom, Bool.and_eq_true, isConvertible_iff hw, PointerConv]
  refine and_congr Iff.rfl ?_
  cases u.const <;> cases t.const <;> simp

theorem pointerFrom_self (hw : E.hier.WF) (hd : E.hier.Defined t.cls) : E.pointerFrom t t = true :=
  (pointerFrom_iff hw).2 ⟨Hier.unambiguous_self hw hd, id⟩

/-! ## Viability -/

section Viability

variable {own g : Given} {conv : Bool} {c : Cat} {how : How} {ref : ParamRef} {e d : Bool} {p : Deduced → Bool}

theorem viable_null : Overload.viable own r conv g c ⟨.null, ref, how, e, d, p⟩ = if g = .null then some .direct else none := rfl

theorem viable_self : Overload.viable own r conv g c ⟨.self, ref, how, e, d, p⟩ =
    if g = own then (if ref = .rref ∧ c ≠ .rvalue then none else some .direct) else if conv then some .converted else none := rfl

theorem viable_lref : Overload.viable own r conv g c ⟨.any, .lref, how, e, d, p⟩ =
    if c ≠ .rvalue ∧ p (.type g c.isConst false) = true then some .direct else none := by
  cases c <;> simp [Overload.viable, deduceOther]

theorem viable_cref : Overload.viable own r conv g c ⟨.any, .cref, how, e, d, p⟩ = if p (.type g false false) = true then some .direct else none := rfl

theorem viable_rref : Overload.viable own r conv g c ⟨.any, .rref, how, e, d, p⟩ = if p (.type g c.isConst c.isLvalue) = true then some .direct else none := rfl

theorem viable_pointer : Overload.viable own r conv g c ⟨.pointer, .value, how, e, d, p⟩ =
    match g with
    | .pointer u => if p (.elem u) = true then some .direct else none
    | _ => none := by
  cases g <;> rfl

theorem viable_vptr (hr : ref ≠ .value) : Overload.viable own r conv g c ⟨.vptr, ref, how, e, d, p⟩ =
    match g with
    | .vptr h s => if s = r ∧ (ref = .lref → c = .lvalue) ∧ (ref = .rref → c = .rvalue) ∧ p (.held h) = true then some .direct else none
    | _ => none := by
  cases g <;> cases ref <;> simp [Overload.viable, deduceOther] at hr ⊢
  all_goals split_ifs <;> simp_all

end Viability

/-- Which overloads are viable is decided by cases; which of them is best, by computation. -/
macro "resolve" : tactic => `(tactic| (
  simp [resolveOverload, List.filterMap_cons, viable_null, viable_self, viable_lref, viable_cref, viable_rref, viable_pointer, viable_vptr, fromObject, fromObjectAssign, fromPointer,
    fromVirtual, fromSmart, fromSmartVirtual, smartFrom, Resolved.ok, Cat.isConst, Cat.isLvalue, *]
  first | done | rfl | (split_ifs <;> first | rfl | (simp_all; done) | (simp_all; rfl))))

/-! ## Plain virtual pointers -/

/-- What is found for a plain virtual pointer. -/
def plainTable (E : Cpp) (t : Elem) (r : Nat) (f : Form) (g : Given) (c : Cat) : Resolved :=
  match g with
  | .object o =>
    if c ≠ .rvalue ∧ E.pointerFrom t ⟨o, c.isConst⟩ = true then
      if f = .assign ∧ E.poly t.cls = true then .found .acquireCopy .direct
      else if E.poly o = true then (if f = .assign then .found .copy .converted else .found .acquireCopy .direct)
      else .noMatch
    else .noMatch
  | .pointer u => if E.poly t.cls = true ∧ E.pointerFrom t u = true then .found .acquireCopy .direct else .noMatch
  | .vptr h s => if s = r ∧ (h = .plain t ∨ E.pointerFrom t h.elem = true) then .found .copy .direct else .noMatch
  | .null => if f = .convert then .noMatch else .found .null .direct
  | _ => .noMatch

theorem convert_plain (g : Given) (c : Cat) : E.convert (.plain t) r g c = plainTable E t r .convert g c := by
  unfold convert constructors plainConstructors plainTable
  cases g with
  | vptr h s =>
    by_cases h0 : s = r <;> by_cases h1 : h = .plain t <;> cases c <;> resolve
  | _ => cases c <;> resolve

theorem construct_plain (g : Given) (c : Cat) : E.construct (.plain t) r g c = plainTable E t r .construct g c := by
  unfold construct constructors plainConstructors
  rw [convert_plain]
  unfold plainTable
  cases g with
  | vptr h s =>
    by_cases h0 : s = r <;> by_cases h1 : h = .plain t <;> cases hp : E.pointerFrom t h.elem <;> cases c <;> resolve
  | object o =>
    cases hp : E.poly o <;> by_cases hc : E.pointerFrom t ⟨o, c.isConst⟩ = true <;> cases c <;> simp [Cat.isConst] at hc <;> resolve
  | pointer u =>
    cases hp : E.poly t.cls <;> cases hc : E.pointerFrom t u <;> cases c <;> resolve
  | _ => cases c <;> resolve

theorem assign_plain (g : Given) (c : Cat) : E.assign (.plain t) r g c = plainTable E t r .assign g c := by
  unfold assign assignments plainAssignments
  rw [convert_plain]
  unfold plainTable
  cases g with
  | vptr h s =>
    by_cases h0 : s = r <;> by_cases h1 : h = .plain t <;> cases hp : E.pointerFrom t h.elem <;> cases c <;> resolve
  | object o =>
    cases hp : E.poly o <;> cases ht : E.poly t.cls <;> by_cases hc : E.pointerFrom t ⟨o, c.isConst⟩ = true <;> cases c <;> simp [Cat.isConst] at hc <;> resolve
  | pointer u =>
    cases hp : E.poly t.cls <;> cases hc : E.pointerFrom t u <;> cases c <;> resolve
  | _ => cases c <;> resolve

/-! ## Smart virtual pointers -/

/-- What is found for a smart virtual pointer. -/
def smartTable (E : Cpp) (k : Smart) (t : Elem) (r : Nat) (f : Form) (g : Given) (c : Cat) : Resolved :=
  match g with
  | .smart l u =>
    if l = k ∧ E.poly u.cls = true ∧ E.smartFrom k t u c = true then .found (if c = .rvalue then .acquireMove else .acquireCopy) .direct else .noMatch
  | .vptr h s =>
    if s = r ∧ h = .smart k t then
      if k = .unique ∧ c ≠ .rvalue then .deleted else .found (if c = .rvalue then .move else .copy) .direct
    else
      match h with
      | .smart l u => if s = r ∧ l = k ∧ E.smartFrom k t u c = true then .found (if c = .rvalue then .move else .copy) .direct else .noMatch
      | _ => .noMatch
  | .null => if f = .convert then .noMatch else .found .null .direct
  | _ => .noMatch

theorem convert_smart_own (k : Smart) (c : Cat) : E.convert (.smart k t) r (.vptr (.smart k t) r) c = smartTable E k t r .convert (.vptr (.smart k t) r) c := by
  unfold convert constructors smartConstructors
  unfold smartTable
  by_cases h1 : k = .unique <;> cases hp : E.pointerFrom t t <;> cases c <;> resolve

theorem convert_smart_virtual (k l : Smart) (u : Elem) (s : Nat) (c : Cat) (h : ¬ (s = r ∧ Held.smart l u = .smart k t)) :
    E.convert (.smart k t) r (.vptr (.smart l u) s) c = smartTable E k t r .convert (.vptr (.smart l u) s) c := by
  unfold convert constructors smartConstructors
  unfold smartTable
  dsimp only
  rw [if_neg h]
  have h' : ¬ (Given.vptr (.smart l u) s = Given.vptr (.smart k t) r) := fun e => h (by cases e; exact ⟨rfl, rfl⟩)
  by_cases h0 : s = r
  · by_cases h1 : l = k
    · by_cases h2 : k = .unique <;> cases hp : E.pointerFrom t u <;> cases c <;> resolve
    · cases c <;> resolve
  · cases c <;> resolve

theorem convert_smart_smart (k l : Smart) (u : Elem) (c : Cat) : E.convert (.smart k t) r (.smart l u) c = smartTable E k t r .convert (.smart l u) c := by
  unfold convert constructors smartConstructors
  unfold smartTable
  by_cases h1 : l = k
  · by_cases h2 : k = .unique <;> cases hp : E.pointerFrom t u <;> cases ht : E.poly u.cls <;> cases c <;> resolve
  · cases c <;> resolve

theorem convert_smart (k : Smart) (g : Given) (c : Cat) : E.convert (.smart k t) r g c = smartTable E k t r .convert g c := by
  cases g with
  | vptr h s =>
    by_cases e : s = r ∧ h = .smart k t
    · obtain ⟨rfl, rfl⟩ := e
      exact convert_smart_own k c
    · cases h with
      | smart l u => exact convert_smart_virtual k l u s c e
      | plain u =>
        unfold convert constructors smartConstructors
        unfold smartTable
        cases c <;> resolve
  | smart l u => exact convert_smart_smart k l u c
  | _ =>
    unfold convert constructors smartConstructors
    unfold smartTable
    cases c <;> resolve

theorem construct_smart_own (k : Smart) (c : Cat) : E.construct (.smart k t) r (.vptr (.smart k t) r) c = smartTable E k t r .construct (.vptr (.smart k t) r) c := by
  unfold construct constructors smartConstructors
  rw [convert_smart]
  unfold smartTable
  by_cases h1 : k = .unique <;> cases hp : E.pointerFrom t t <;> cases c <;> resolve

theorem construct_smart_virtual (k l : Smart) (u : Elem) (s : Nat) (c : Cat) (h : ¬ (s = r ∧ Held.smart l u = .smart k t)) :
    E.construct (.smart k t) r (.vptr (.smart l u) s) c = smartTable E k t r .construct (.vptr (.smart l u) s) c := by
  unfold construct constructors smartConstructors
  rw [convert_smart]
  unfold smartTable
  dsimp only
  rw [if_neg h]
  have h' : ¬ (Given.vptr (.smart l u) s = Given.vptr (.smart k t) r) := fun e => h (by cases e; exact ⟨rfl, rfl⟩)
  by_cases h0 : s = r
  · by_cases h1 : l = k
    · by_cases h2 : k = .unique <;> cases hp : E.pointerFrom t u <;> cases c <;> resolve
    · cases c <;> resolve
  · cases c <;> resolve

theorem construct_smart_smart (k l : Smart) (u : Elem) (c : Cat) : E.construct (.smart k t) r (.smart l u) c = smartTable E k t r .construct (.smart l u) c := by
  unfold construct constructors smartConstructors
  rw [convert_smart]
  unfold smartTable
  by_cases h1 : l = k
  · by_cases h2 : k = .unique <;> cases hp : E.pointerFrom t u <;> cases ht : E.poly u.cls <;> cases c <;> resolve
  · cases c <;> resolve

theorem construct_smart (k : Smart) (g : Given) (c : Cat) : E.construct (.smart k t) r g c = smartTable E k t r .construct g c := by
  cases g with
  | vptr h s =>
    by_cases e : s = r ∧ h = .smart k t
    · obtain ⟨rfl, rfl⟩ := e
      exact construct_smart_own k c
    · cases h with
      | smart l u => exact construct_smart_virtual k l u s c e
      | plain u =>
        unfold construct constructors smartConstructors
        rw [convert_smart]
        unfold smartTable
        cases c <;> resolve
  | smart l u => exact construct_smart_smart k l u c
  | _ =>
    unfold construct constructors smartConstructors
    rw [convert_smart]
    unfold smartTable
    cases c <;> resolve

theorem assign_smart_own (hs : E.pointerFrom t t = true) (k : Smart) (c : Cat) : E.assign (.smart k t) r (.vptr (.smart k t) r) c = smartTable E k t r .assign (.vptr (.smart k t) r) c := by
  unfold assign assignments smartAssignments
  rw [convert_smart]
  unfold smartTable
  by_cases h1 : k = .unique <;> cases c <;> resolve

theorem assign_smart_virtual (k l : Smart) (u : Elem) (s : Nat) (c : Cat) (h : ¬ (s = r ∧ Held.smart l u = .smart k t)) :
    E.assign (.smart k t) r (.vptr (.smart l u) s) c = smartTable E k t r .assign (.vptr (.smart l u) s) c := by
  unfold assign assignments smartAssignments
  rw [convert_smart]
  unfold smartTable
  dsimp only
  rw [if_neg h]
  have h' : ¬ (Given.vptr (.smart l u) s = Given.vptr (.smart k t) r) := fun e => h (by cases e; exact ⟨rfl, rfl⟩)
  by_cases h0 : s = r
  · by_cases h1 : l = k
    · by_cases h2 : k = .unique <;> cases hp : E.pointerFrom t u <;> cases c <;> resolve
    · cases c <;> resolve
  · cases c <;> resolve

theorem assign_smart_smart (k l : Smart) (u : Elem) (c : Cat) : E.assign (.smart k t) r (.smart l u) c = smartTable E k t r .assign (.smart l u) c := by
  unfold assign assignments smartAssignments
  rw [convert_smart]
  unfold smartTable
  by_cases h1 : l = k
  · by_cases h2 : k = .unique <;> cases hp : E.pointerFrom t u <;> cases ht : E.poly u.cls <;> cases c <;> resolve
  · cases c <;> resolve

theorem assign_smart (hs : E.pointerFrom t t = true) (k : Smart) (g : Given) (c : Cat) : E.assign (.smart k t) r g c = smartTable E k t r .assign g c := by
  cases g with
  | vptr h s =>
    by_cases e : s = r ∧ h = .smart k t
    · obtain ⟨rfl, rfl⟩ := e
      exact assign_smart_own hs k c
    · cases h with
      | smart l u => exact assign_smart_virtual k l u s c e
      | plain u =>
        unfold assign assignments smartAssignments
        rw [convert_smart]
        unfold smartTable
        cases c <;> resolve
  | smart l u => exact assign_smart_smart k l u c
  | _ =>
    unfold assign assignments smartAssignments
    rw [convert_smart]
    unfold smartTable
    cases c <;> resolve

/-- What is found for a virtual pointer. -/
def table (E : Cpp) (f : Form) (h : Held) (r : Nat) (g : Given) (c : Cat) : Resolved :=
  match h with
  | .plain t => plainTable E t r f g c
  | .smart k t => smartTable E k t r f g c

theorem resolved_table {f : Form} {h : Held} {r : Nat} {g : Given} {c : Cat} (hw : E.hier.WF) (hd : E.hier.Defined h.elem.cls) : E.resolved f h r g c = table E f h r g c := by
  cases h with
  | plain t =>
    cases f
    · exact convert_plain g c
    · exact construct_plain g c
    · exact assign_plain g c
  | smart k t =>
    cases f
    · exact convert_smart k g c
    · exact construct_smart k g c
    · exact assign_smart (pointerFrom_self hw hd) k g c

end Cpp

end OpenMethod
