import Verif.SpecPtr
import Verif.Model.Bare

/-! # Specification of registries without a vptr policy -/

namespace OpenMethod

/-- `initialize` succeeds in a registry without a vptr policy. -/
def Boots (B : BareEnv) (p : Program) (s s' : RegState) (rep : Report) : Prop := initBare B p s = .ok { state := s', result := .ok rep }

/-- The same registry, with `vptr_map`. -/
def BareEnv.mapped (B : BareEnv) (rnd : Nat → BitVec 64) : Env where
  cfg := { checks := B.checks, indirect := B.indirect, vector := false, typeHash := false }
  platform := B.platform
  n2216 := B.n2216
  rnd := rnd

/-- All is the same, except what belongs to the vptr policy. -/
structure SameButVptr (s t : RegState) : Prop where
  data : s.data = t.data
  gen : s.gen = t.gen
  fresh : s.fresh = t.fresh
  svptr : s.svptr = t.svptr
  ss : s.ss = t.ss
  next : s.next = t.next
  initialized : s.initialized = t.initialized

/-- When pointers to v-tables that were obtained in state `s0` can be used in state `s`. -/
def UsableIn (B : BareEnv) (s0 s : RegState) : Prop := B.indirect = true ∨ s0 = s

/-- `virtual_ptr`s to an object in a registry without a vptr policy: made by `final_virtual_ptr`, or from an object that embeds its v-table pointer; then copied,
converted and cast. -/
inductive BareChain (B : BareEnv) (p : Program) (s : RegState) (o : Obj) : VirtualPtr → Prop
  | final {s0 w poly st v} : UsableIn B s0 s → p.rtti.ti st = p.rtti.ti o.type → ClassVar p st v → VirtualPtr.final B.cfg s0 poly st v (some o) = .ok w →
      BareChain B p s o w
  | embedded {v q} : B.indirect = false → ClassVar p o.type v → virtualPtrOfEmbedded B.cfg s (embed B.cfg s v) = .ok (.direct q) →
      BareChain B p s o { vp := .boxed (.direct q), obj := .to o }
  | copy {w w'} : BareChain B p s o w → w.copy = .ok w' → BareChain B p s o w'
  | cast {w w' c k} : BareChain B p s o w → c.isInstance = true → VirtualPtr.cast c k w = .ok (some w') → BareChain B p s o w'

/-- An argument that designates an object: such a `virtual_ptr`, or the object itself, in which the constructors stored the v-table pointer of its class. -/
inductive BareFor (B : BareEnv) (p : Program) (s : RegState) (o : Obj) : BareArg → Prop
  | ptr {w b} : BareChain B p s o w → w.arg = .ok (.vptr b) → BareFor B p s o (.vptr b)
  | embedded {s0 v} : UsableIn B s0 s → ClassVar p o.type v → BareFor B p s o (.embedded (embed B.cfg s0 v))

/-- Arguments for parameters of kinds `ks`; `os` are the objects themselves. -/
inductive BareArgs (B : BareEnv) (p : Program) (s : RegState) : List Bool → List BareArg → List Arg → Prop
  | nil : BareArgs B p s [] [] []
  | virt {ks as os a} (o : Obj) : p.HasId o.type → BareFor B p s o a → BareArgs B p s ks as os → BareArgs B p s (true :: ks) (a :: as) (.obj o.type :: os)
  | other {ks as os} (a : BareArg) (b : Arg) : BareArgs B p s ks as os → BareArgs B p s (false :: ks) (a :: as) (b :: os)

end OpenMethod
