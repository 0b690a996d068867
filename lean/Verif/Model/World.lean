import Verif.Model.Registry

/-!
# Several registries in a program (preamble.hpp 922-1041)

The global variables of all the registries in a program. `dispatch_data`, `initialized` (preamble.hpp 943-948) and the data
of policies exist once per registry, being static members of templates instantiated with the registry. The other variables are
reached through pointers in the records of classes, methods and overriders (`static_vptr`, `slots_strides`, `next`): here they
all live in the same memory.
-/

namespace OpenMethod

/-- Identifies a registry. -/
abbrev RegId := Nat

structure World where
  data : RegId → List Word
  gen : RegId → Nat
  vptr : RegId → VptrState
  initialized : RegId → Bool
  /-- the allocator is shared -/
  fresh : Nat
  svptr : VarId → Option Ptr
  ss : Nat → Option (List Nat)
  next : VarId → Option Pf

/-- Zero-initialised static storage. -/
def World.init : World where
  data _ := []
  gen _ := 0
  vptr _ := .init
  initialized _ := false
  fresh := 1
  svptr _ := none
  ss _ := none
  next _ := none

/-- What the functions of registry `r` see. -/
def World.view (w : World) (r : RegId) : RegState where
  data := w.data r
  gen := w.gen r
  fresh := w.fresh
  svptr := w.svptr
  ss := w.ss
  next := w.next
  vptr := w.vptr r
  initialized := w.initialized r

/-- The world after a function of registry `r` changed the state that it sees to `s`. -/
def World.put (w : World) (r : RegId) (s : RegState) : World where
  data := Function.update w.data r s.data
  gen := Function.update w.gen r s.gen
  vptr := Function.update w.vptr r s.vptr
  initialized := Function.update w.initialized r s.initialized
  fresh := s.fresh
  svptr := s.svptr
  ss := s.ss
  next := s.next

end OpenMethod
