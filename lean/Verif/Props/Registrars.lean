import Verif.Proof.Registrars
import Verif.Props.Registry

/-! # C54, C55: `initialize` sees the live registrars -/

namespace OpenMethod.Props

open Spec

variable {es : List (RegEvent × Ids)} {L : Alive}

/-- C54: after any history of construction and destruction of registrars, methods before or after their overriders,
without undefined behaviour and without failed assertion, `initialize` finds exactly the classes, methods and overriders that are
alive, in the order of their construction. With `deferred_static_rtti`, type ids are those at the time of
`initialize`; otherwise, those at the time of construction. The loops end: any bound that is at least the number of events
suffices. -/
theorem C54 (h : Alive.History .none es L) (deferred : Bool) (D : Decls) (rtti : Rtti) (now : Ids) {fuel : Nat} (hf : es.length ≤ fuel) :
    ∃ s, Registrars.init.run deferred es = .ok s ∧
      s.program deferred D rtti fuel now = some (L.program D rtti fun t => if deferred then now else t) := by
  obtain ⟨s, h1, h2⟩ := Registrars.run_rep (deferred := deferred) Registrars.init_rep h
  obtain ⟨hc, hm, ho⟩ := h.length
  simp only [Alive.none, List.length_nil, Nat.zero_add] at hc hm ho
  exact ⟨s, h1, h2.program D rtti now (hc.trans hf) (hm.trans hf) fun m => (ho m).trans hf⟩

/-- C55: objects that were registered and unregistered leave no trace. In any history, take away all events that
concern a set of objects none of which is alive at the end (for instance, the static objects of a module that was unloaded).
`initialize` finds the same program. -/
theorem C55 (h : Alive.History .none es L) (X : RegObj → Prop) [DecidablePred X] (hX : ∀ x, X x → ¬ L.Live x) (deferred : Bool)
    (D : Decls) (rtti : Rtti) (now : Ids) {fuel : Nat} (hf : es.length ≤ fuel) :
    ∃ s s0 p, Registrars.init.run deferred es = .ok s ∧ Registrars.init.run deferred (es.filter fun e => ¬ X e.1.obj) = .ok s0 ∧
      s.program deferred D rtti fuel now = some p ∧ s0.program deferred D rtti fuel now = some p := by
  obtain ⟨s, h1, h2⟩ := C54 h deferred D rtti now hf
  have h0 := h.without X
  rw [Alive.without_none] at h0
  obtain ⟨s0, h3, h4⟩ := C54 h0 deferred D rtti now ((List.length_filter_le _ _).trans hf)
  rw [Alive.without_program X hX] at h4
  exact ⟨s, s0, _, h1, h3, h2, h4⟩

/-- C55, calls: in one program, objects in `X` were registered, possibly used by any number of calls to `initialize`, then
unregistered; in the other program they never existed. After a successful `initialize` in both, calls have the same outcome. -/
theorem C55_calls (h : Alive.History .none es L) (X : RegObj → Prop) [DecidablePred X] (hX : ∀ x, X x → ¬ L.Live x) {deferred : Bool}
    {D : Decls} {rtti : Rtti} {now : Ids} {fuel : Nat} (hf : es.length ≤ fuel) {s s0 : Registrars} {p p0 : Program}
    (hs : Registrars.init.run deferred es = .ok s) (hs0 : Registrars.init.run deferred (es.filter fun e => ¬ X e.1.obj) = .ok s0)
    (hp : s.program deferred D rtti fuel now = some p) (hp0 : s0.program deferred D rtti fuel now = some p0)
    {E : Env} (hg : p.Good E.cfg) {r r' r0 r0' : RegState} {rep rep0 : Report} (hi : Initializes E p r r' rep)
    (hi0 : Initializes E p0 r0 r0' rep0) {m : MethodInfo} (hm : m ∈ p.methods) {as bs : List Arg}
    (hab : SameObjects E.cfg p r' r0' m.params as bs) (types : List TypeId) :
    rep = rep0 ∧ call E.cfg r' m as types = call E.cfg r0' m bs types := by
  obtain ⟨t, t0, q, e1, e2, e3, e4⟩ := C55 h X hX deferred D rtti now hf
  rw [hs] at e1
  rw [hs0] at e2
  obtain rfl := Res.ok.inj e1
  obtain rfl := Res.ok.inj e2
  rw [hp] at e3
  rw [hp0] at e4
  obtain rfl := Option.some.inj e3
  obtain rfl := Option.some.inj e4
  exact C31 hg hi hi0 hm hab types

/-! ## Example

Classes 1 and 2 (2 derives from 1), a method 7 on class 1, whose first overrider is constructed before the method; a module
with class 3 and a second overrider, loaded and unloaded. -/

def regDecls : Decls where
  staticVptr c := c
  isAbstract _ := false
  params _ := [true]
  pf _ o := 100 + o
  next _ o := 200 + o

/-- Type ids, once they are known. -/
def regIds : Ids where
  cls c := BitVec.ofNat 64 c
  bases c := if c = 1 then [1] else [BitVec.ofNat 64 c, 1]
  vp _ := [1]
  ret _ := 0
  ovp _ o := [BitVec.ofNat 64 o]
  oret _ _ := 0

def regRtti : Rtti := { ti := fun t => t.toNat, void := 0 }

/-- The events of the program, at a time when static_type returns `t`. -/
def regEvents (t : Ids) : List (RegEvent × Ids) :=
  [(.override 7 2, t), (.useClass 1, t), (.override 7 2, t), (.useClass 2, t), (.useClass 3, t), (.override 7 3, t), (.declare 7, t), (.dropClass 3, t),
    (.drop 7 3, t), (.unmapOverrider 7 3, t)]

def regAlive (t : Ids) : Alive where
  classes := [(1, t), (2, t)]
  methods := [(7, t)]
  overriders m := if m = 7 then [(2, t)] else []
  stale _ _ := False

theorem has_nil (x : Nat) : ¬ Has [] x := by simp [Has]

theorem regHistory (t : Ids) : Alive.History .none (regEvents t) (regAlive t) := by
  refine .cons (.override (has_nil _) id) <| .cons (.useClass (has_nil _)) <| .cons (.twice ⟨t, by simp [Alive.none]⟩) <|
    .cons (.useClass (by simp [Has, Alive.none])) <| .cons (.useClass (by simp [Has, Alive.none])) <|
    .cons (.override (by simp [Has, Alive.none]) id) <| .cons (.declare (has_nil _)) <|
    .cons (.dropClass (a := [(1, t), (2, t)]) (b := []) (t := t) rfl) <|
    .cons (.drop (a := [(2, t)]) (b := []) (t := t) (by simp [Alive.none])) <|
    .cons (.unmapOverrider (by simp [Has, Alive.none])) ?_
  refine cast (congrArg (fun L => Alive.History L [] (regAlive t)) ?_) (.nil : Alive.History (regAlive t) [] (regAlive t))
  simp only [regAlive, Alive.none, Alive.mk.injEq]
  refine ⟨rfl, rfl, ?_, ?_⟩
  · funext m
    by_cases hm : m = 7
    · subst hm; simp
    · simp [hm, Function.update]
  · funext m o
    simp

/-- The program that `initialize` must find. -/
def regProgram : Program where
  rtti := regRtti
  classes := [⟨1, [1], false, 1⟩, ⟨2, [2, 1], false, 2⟩]
  methods := [⟨7, [true], [1], 0, [⟨[2], 0, 102, 202⟩]⟩]

/-- Without deferred rtti, type ids must be known when the objects are constructed. -/
example : (regAlive regIds).program regDecls regRtti (fun t => if false then regIds else t) = regProgram := by
  simp [Alive.program, regAlive, regDecls, regIds, regProgram]

/-- With it, they can be assigned later. -/
example : (regAlive .zero).program regDecls regRtti (fun t => if true then regIds else t) = regProgram := by
  simp [Alive.program, regAlive, regDecls, regIds, regProgram]

/-- The module is dead at the end. -/
example (t : Ids) : ∀ x, (x = .cls 3 ∨ x = .ovr 7 3) → ¬ (regAlive t).Live x := by
  rintro x (rfl | rfl) <;> simp [Alive.Live, Has, regAlive]

/-- The condition on storage in `Alive.Step.override` is needed: an overrider constructed a second time in storage that was not
zeroed is not registered, because `method` is still set. -/
example : ((Registrars.init.run false [(.declare 7, regIds), (.override 7 2, regIds), (.drop 7 2, regIds), (.override 7 2, regIds)]).bind
    fun s => Res.ofOption ((s.program false regDecls regRtti 9 regIds).map fun p => p.methods.map (·.overriders.length))) = .ok [0] := by
  decide +kernel

/-- When the storage was zeroed, it is. -/
example : ((Registrars.init.run false [(.declare 7, regIds), (.override 7 2, regIds), (.drop 7 2, regIds), (.unmapOverrider 7 2, regIds),
    (.override 7 2, regIds)]).bind
    fun s => Res.ofOption ((s.program false regDecls regRtti 9 regIds).map fun p => p.methods.map (·.overriders.length))) = .ok [1] := by
  decide +kernel

end OpenMethod.Props
