import Verif.Proof.StaticList

/-! # C29: registration lists behave as sequences -/

namespace OpenMethod.Props

open Spec

/-- C29: after any history of registrations and unregistrations, without undefined behaviour and without failed assertion,
iteration visits the registered items, once each, in order; `empty` is true when there is none. `clear` and iteration end: any
bound on the number of steps that is at least the number of registrations is sufficient. -/
theorem C29 {ops : List ListOp} {l : List Nat} (h : History [] ops l) (fuel : Nat) (hf : pushes ops ≤ fuel) :
    ∃ s, SList.init.run fuel ops = .ok s ∧ s.iterate fuel = some l ∧ l.Nodup ∧ (s.empty = true ↔ l = []) := by
  obtain ⟨s, h1, h2, h3⟩ := SList.run_rep SList.init_rep h fuel (by simpa using hf)
  refine ⟨s, h1, SList.iterate_rep h2 fuel h3, h2.nodup, ?_⟩
  unfold SList.empty
  rw [h2.first]
  cases l <;> simp

/-- After a removal, the item can be registered again. -/
theorem C29_again {l : List Nat} {x : Nat} {s : SList} (h : s.Rep l) (hx : x ∈ l) :
    ∃ s' s'', s.remove x = .ok s' ∧ s'.pushBack x = .ok s'' ∧ s''.Rep (l.erase x ++ [x]) := by
  obtain ⟨a, b, rfl⟩ := List.append_of_mem hx
  obtain ⟨s', h1, h2⟩ := SList.remove_rep h
  have hnd := h.nodup
  rw [List.nodup_append] at hnd
  have hxa : x ∉ a := fun hx => hnd.2.2 x hx x (by simp) rfl
  have hxb : x ∉ b := (List.nodup_cons.1 hnd.2.1).1
  obtain ⟨s'', h3, h4⟩ := SList.pushBack_rep h2 (x := x) (by simp [hxa, hxb])
  refine ⟨s', s'', h1, h3, ?_⟩
  rw [List.erase_append_right _ hxa, List.erase_cons_head]
  exact h4

/-- A history that removes the last, the first, a middle and the only item, and registers an item again. -/
example : History [] [.push 1, .push 2, .push 3, .push 4, .remove 2, .remove 4, .remove 1, .push 2, .remove 3, .remove 2, .push 1, .clear, .push 1] [1] := by
  refine .cons (.push (by decide)) <| .cons (.push (by decide)) <| .cons (.push (by decide)) <| .cons (.push (by decide)) <| ?_
  refine .cons (.remove (a := [1]) (b := [3, 4])) <| .cons (.remove (a := [1, 3]) (b := [])) <| .cons (.remove (a := []) (b := [3])) <| ?_
  refine .cons (.push (by decide)) <| .cons (.remove (a := []) (b := [2])) <| .cons (.remove (a := []) (b := [])) <| ?_
  exact .cons (.push (by decide)) <| .cons .clear <| .cons (.push (by decide)) .nil

end OpenMethod.Props
