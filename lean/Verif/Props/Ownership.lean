import Verif.Proof.Ownership

/-!
# C67: ownership
-/

namespace OpenMethod.Props

open Ownership

/-- C67: in a program that respects the types of its variables, no object is used, copied or deleted after its destruction, no `std::unique_ptr` is copied, and every object is destroyed exactly once. -/
theorem C67 {c : Code} {r : Option Own} (h : c.Typed [] r) : ∃ s, run c = .ok s ∧ s.gone.Perm (List.range s.next) := by
  have g0 : Good ⟨0, fun _ => 0, fun _ => false, [], []⟩ (fun a => hold a [] + 0) := ⟨by simp, by simp, by simp, by simp⟩
  obtain ⟨s1, F1, e, e1, d1⟩ := exec_ok h g0 (by intro x hx; simp at hx) rfl
  obtain ⟨s2, e2, g2, _, l2⟩ := Good.dropAll (xs := F1.reverse) (T := fun a => hold a e.slots + 0) (d1.good.congr fun a => by rw [hold_reverse])
  obtain ⟨s3, e3, g3, _⟩ := Good.dropAll (xs := e.slots) (T := fun _ => 0) g2
  -- the global variables are counted as ordinary ones
  obtain ⟨s4, e4, g4, _, l4⟩ := Good.dropAll (xs := s3.globals) (s := { s3 with globals := [] }) (T := fun _ => 0)
    ⟨fun a => by have := g3.count a; simp only [hold_nil] at this ⊢; omega, g3.gone, g3.nodup, g3.fresh⟩
  obtain ⟨s5, e5, h5⟩ := dropAll_globals (s := s3) [] s3.globals e4
  refine ⟨s5, ?_, ?_⟩
  · simp only [run, e1, e2, e3, e5, Res.ok_bind]
  · rw [h5.1, h5.2, List.perm_ext_iff_of_nodup g4.nodup List.nodup_range]
    intro a
    rw [g4.gone, List.mem_range]
    have := g4.count a
    rw [l4] at this
    simp [this]

/-- At any moment: if the counts are those of the owners, and what is not an owner refers to an object that has one in a calling function, then so it is when the function ends; and the only object that it
gives to its caller is the one that it returns. -/
theorem C67_function {os : List Own} {r : Option Own} {c : Code} (h : c.Typed os r) {s : Store} {F : List Slot} {ext : Nat → Nat} (hg : Good s fun a => hold a F + ext a) (hF : FOk s ext F)
    (hos : F.map (·.own) = os) : ∃ s' F' e, exec c s F = .ok (s', F', e) ∧ Good s' (fun a => hold a F' + (hold a e.slots + ext a)) ∧ ∀ x, e = .ret x → x.map (·.own) = r := by
  obtain ⟨s', F', e, h1, h2⟩ := exec_ok h hg hF hos
  exact ⟨s', F', e, h1, h2.good, h2.typed⟩

/-- Calls: the overrider receives the objects that the caller passed. After the call, variables that were moved are empty, the others have not changed, and the parameters are not owners any more. -/
theorem C67_call {os : List Own} {ps : List Param} {os' : List Own} {r' : Option Own} {c k h : Code} (hp : List.Forall₂ (Param.Typed os) ps os') (hm : MovedOnce ps) (hc : c.Typed os' r')
    {s : Store} {F : List Slot} {ext : Nat → Nat} (hg : Good s fun a => hold a F + ext a) (hF : FOk s ext F) (hos : F.map (·.own) = os)
    (hn : ∀ p ∈ ps, F[p.arg.var]?.bind (·.obj) ≠ none) (hok : ∀ p ∈ ps, p.cast = .ok) :
    ∃ s1 cs s2 cs' e s3 F', cs.map (·.obj) = ps.map (fun p => F[p.arg.var]?.bind (·.obj)) ∧ cs.map (·.own) = os' ∧ exec c s1 cs = .ok (s2, cs', e) ∧
      (∀ i, F'[i]?.bind (·.obj) = if Arg.move i ∈ ps.map (·.arg) then none else F[i]?.bind (·.obj)) ∧ F'.map (·.own) = os ∧ Good s3 (fun a => hold a F' + (hold a e.slots + ext a)) ∧
      exec (.call ps (some c) k h) s F = match e with
        | .ret none => exec k s3 F'
        | .ret (some x) => exec k s3 (F' ++ [x])
        | .threw => exec h s3 F' := by
  obtain ⟨s1, as, F1, e1, g1, f1, ho1, gr1, fa, hz, hl⟩ := passAll_ok hg (fun _ => Nat.le_refl _) hF hos hp hm
  obtain ⟨s2, cs, bs, t, e2, gr2, g2, f2, ht⟩ := castAll_ok g1 (fun _ => Nat.le_refl _) fa hz hl
  obtain ⟨ho, hmoved⟩ := passAll_obj e1 hm (fun p hp' i hi => by
    obtain ⟨o, x, y, hx, hxy, _⟩ := forall₂_left hp p hp'
    rw [hi] at hx hxy
    obtain ⟨z, hz, rfl⟩ := get_of_own hos hx
    cases hxy with
    | move h => exact ⟨z, hz, h⟩)
  obtain ⟨rfl, hobj⟩ := castAll_obj e2 hl hok
  obtain ⟨s3, cs', e, e3, d3⟩ := exec_ok hc (ext := fun a => hold a bs + (hold a F1 + ext a)) g2 (f2.mono fun a ha => by omega) (ht rfl)
  obtain ⟨s4, e4, g4, gr4, _⟩ := Good.dropAll (xs := cs'.reverse) (d3.good.congr fun a => by rw [hold_reverse])
  obtain ⟨s5, e5, g5, gr5, _⟩ := Good.dropAll (xs := bs.reverse) (T := fun a => hold a e.slots + (hold a F1 + ext a)) (g4.congr fun a => by rw [hold_reverse]; omega)
  obtain ⟨s6, e6, g6, gr6, _⟩ := Good.dropAll (xs := (as.map Slot.emptied).reverse) (g5.congr fun a => by rw [hold_reverse, hold_map_emptied, Nat.zero_add])
  have hn' : ¬ (ps.any fun p => (F[p.arg.var]?.bind (·.obj)) = none) = true := by
    simp only [List.any_eq_true, decide_eq_true_eq, not_exists, not_and]
    exact hn
  refine ⟨s2, cs, s3, cs', e, s6, F1, hobj.trans ho, ht rfl, e3, fun i => ?_, ho1, g6.congr fun a => by omega, ?_⟩
  · split
    · rename_i hi
      obtain ⟨p, hp', hi⟩ := List.mem_map.1 hi
      exact hmoved p hp' i hi
    · rename_i hi
      rw [passAll_keeps e1 i fun p hp' hi' => hi (List.mem_map.2 ⟨p, hp', hi'⟩)]
  · simp only [exec, hn', e1, e2, e3, e4, e5, e6, Res.ok_bind]
    rfl

/-! ## Examples -/

namespace OwnershipExample

/-- Takes a `std::unique_ptr`, a `const std::shared_ptr&` and a `std::shared_ptr`; keeps the second one, destroys a global variable, and returns the first one. -/
def callee : Code := .use 1 (.keep 1 (.forget 0 (.ret (some 0))))

/-- Creates three objects. A first call moves the first one, which comes back, and copies the third; a second call fails to cast its second argument, when the first object has already been moved to the
parameter of the overrider; a third call is handled by `fn_not_implemented`. -/
def code : Code :=
  .make .unique <| .make .shared <| .make .shared <|
    .call [⟨.move 0, .moved, .ok⟩, ⟨.ref 1, .temporary, .ok⟩, ⟨.copy 2, .moved, .ok⟩] (some callee)
      (.call [⟨.move 3, .moved, .ok⟩, ⟨.ref 1, .temporary, .throws⟩, ⟨.move 2, .copied, .ok⟩] (some callee) .throw
        (.use 1 (.call [⟨.object 1, .object, .ok⟩] none .throw (.take 1 (.ret none)))))
      .throw

theorem callee_typed : callee.Typed [.unique, .shared, .shared] (some .unique) :=
  .use rfl (.keep rfl (.inl rfl) (.forget (.retOwner rfl rfl)))

theorem code_typed : code.Typed [] none := by
  refine .make rfl (.make rfl (.make rfl (.call (r' := some .unique) (.cons ?_ (.cons ?_ (.cons ?_ .nil))) ?_ callee_typed
    (.call (r' := some .unique) (.cons ?_ (.cons ?_ (.cons ?_ .nil))) ?_ callee_typed .throw (.use rfl (.fails (os' := [.raw]) (.cons ?_ .nil) ?_ (.take rfl rfl .ret)))) .throw)))
  · exact ⟨.unique, .unique, rfl, .move rfl, .moved rfl⟩
  · exact ⟨.shared, .ref, rfl, .ref (.inl rfl), .temporary⟩
  · exact ⟨.shared, .shared, rfl, .copy (.inl rfl), .moved rfl⟩
  · simp [MovedOnce, Arg.var, List.count_cons]
  · exact ⟨.unique, .unique, rfl, .move rfl, .moved rfl⟩
  · exact ⟨.shared, .ref, rfl, .ref (.inl rfl), .temporary⟩
  · exact ⟨.shared, .shared, rfl, .move rfl, .copied⟩
  · simp [MovedOnce, Arg.var, List.count_cons]
  · exact ⟨.shared, .raw, rfl, .object, .object⟩
  · simp [MovedOnce]

/-- The first object is destroyed with the parameter of the overrider, when the cast of the second one fails; the third with the parameter of the thunk; the second at the end, with a global variable. -/
example : (do let s ← run code; Res.ok (s.gone, s.next)) = .ok ([1, 2, 0], 3) := by decide +kernel

example : ∃ s, run code = .ok s ∧ s.gone.Perm (List.range s.next) := C67 code_typed

/-- Code that does not respect types: a `std::unique_ptr` is copied, or moved twice in the same call. -/
example : (do let s ← run (.make .unique (.call [⟨.copy 0, .moved, .ok⟩] (some (.ret none)) (.ret none) (.ret none))); Res.ok s.next) = .ub := by decide +kernel

example : ¬ Code.Typed [] none (.make .unique (.call [⟨.copy 0, .moved, .ok⟩] (some (.ret none)) (.ret none) (.ret none))) := by
  intro h
  cases h with
  | make _ h =>
    cases h with
    | call hp _ _ _ _ =>
      cases hp with
      | cons hp _ =>
        obtain ⟨x, y, hx, hxy, _⟩ := hp
        obtain rfl : x = .unique := by simpa [Arg.var] using hx.symm
        cases hxy with
        | copy h => simp at h

end OwnershipExample

end OpenMethod.Props
