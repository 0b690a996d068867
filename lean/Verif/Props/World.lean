import Verif.Proof.World
import Verif.Props.Registry

/-! # C45: registries are independent -/

namespace OpenMethod.Props

open Spec Examples

variable {O : Owner} {cfg : RegId → Config} {w w' : World} {r : RegId}

/-- C45: in any state of the program, any operations on other registries do not change the outcome of calls to the methods of
a registry, nor the `next` of its overriders, nor the `virtual_ptr`s that can be made. -/
theorem C45 (hw : World.Reachable O cfg w) (h : World.Others O cfg r w w') :
    (∀ (m : MethodInfo) (args : List Arg) (types : List TypeId), O.method m.id = r → (∀ a ∈ args, O.Arg r a) →
      call (cfg r) (w'.view r) m args types = call (cfg r) (w.view r) m args types) ∧
    (∀ t, makeVirtualPtr (cfg r) (w'.view r) t = makeVirtualPtr (cfg r) (w.view r) t) ∧
    ∀ v, O.next v = r → (w'.view r).next v = (w.view r).next v := by
  refine ⟨fun m args types hm ha => h.same.call (hw.vars r) hm ha types, fun t => ?_, fun v hv => h.same.next v hv⟩
  unfold makeVirtualPtr
  rw [acquire_congr (s' := w'.view r) (s := w.view r) h.same.initialized h.same.vptr]

/-! ## The hypotheses are met -/

/-- Variables and methods below 1000 belong to registry 0, the others to registry 1. -/
def halves : Owner := { svptr := fun v => v / 1000, method := fun m => m / 1000, next := fun v => v / 1000 }

/-- A program like `gap`, in registry 1: same classes and type ids, other variables. -/
def gap1 : Program := prog [{ cls 1 [] with staticVptr := 1001 }, { cls 3 [1] with staticVptr := 1003 }] [meth 1000 [true] [1] [⟨ids [1], 1000#64, 1010, 1010⟩]]

theorem zoo_owned : halves.Program 0 zoo := ⟨by decide, by decide, by decide⟩
theorem gap1_owned : halves.Program 1 gap1 := ⟨by decide, by decide, by decide⟩

def twoConfigs : RegId → Config := fun r => if r = 0 then Config.ind hashed else Config.ind mapped

/-- Registry 0 is initialized, then registry 1 is initialized and finalized; a call in registry 0 works as before. -/
example : ∃ w w', World.Reachable halves twoConfigs w ∧ World.Others halves twoConfigs 0 w w' ∧
    call (Config.ind hashed) (w'.view 0) meet [.obj 0, .obj 4, .vptr (.indirect 3), .obj 0] [] = .ok 23 ∧
    (w.view 0).initialized = true ∧ (w'.view 1).initialized = false ∧ w'.svptr 1001 ≠ w.svptr 1001 := by
  have hrun : ((initOf (env (Config.ind hashed)) zoo (World.init.view 0)).bind fun x =>
      (initOf (env (Config.ind mapped)) gap1 ((World.init.put 0 x.1).view 1)).map fun y =>
        let w' := ((World.init.put 0 x.1).put 1 y.1).put 1 (finalize (env (Config.ind mapped)) (((World.init.put 0 x.1).put 1 y.1).view 1))
        (call (Config.ind hashed) (w'.view 0) meet [.obj 0, .obj 4, .vptr (.indirect 3), .obj 0] [], ((World.init.put 0 x.1).view 0).initialized,
          (w'.view 1).initialized, decide (w'.svptr 1001 = (World.init.put 0 x.1).svptr 1001))) = some (.ok 23, true, false, false) := by decide +kernel
  rw [Option.bind_eq_some_iff] at hrun
  obtain ⟨⟨x, rep⟩, h1, hrun⟩ := hrun
  rw [Option.map_eq_some_iff] at hrun
  obtain ⟨⟨y, rep'⟩, h2, hrun⟩ := hrun
  simp only [Prod.mk.injEq, decide_eq_false_iff_not] at hrun
  obtain ⟨e1, e2, e3, e4⟩ := hrun
  exact ⟨_, _, .step .start (.ok rfl zoo_owned (good (by decide +kernel)) (initOf_eq h1)),
    .step (.step .refl (by decide) (.ok rfl gap1_owned (good (by decide +kernel)) (initOf_eq h2))) (by decide) (.final rfl), e1, e2, e3, e4⟩

end OpenMethod.Props
