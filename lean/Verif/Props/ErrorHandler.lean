import Verif.Proof.ErrorHandler
import Verif.Props.Registry

/-! # C43, C44 and C52: error handlers -/

namespace OpenMethod.Props

open Spec Examples

variable {S : Setup} {cfg : Config} {st st' : EffState} {op : LibOp} {o : Out LibVal}

/-- How an operation ends, depending on what the library does in the other modules. -/
def Ends (S : Setup) (cfg : Config) (op : LibOp) (st : EffState) : Prop :=
    (∃ v s', Yields cfg st.reg st.handler op v s' ∧
      ∃ st', op.run S cfg st = (.ret v, st') ∧ st'.reg = s' ∧ st'.log = st.log ∧ ((∀ f, op ≠ .setHandler f) → st'.handler = st.handler)) ∨
    (∃ e, Reports cfg st.reg op e ∧ ∃ o st', op.run S cfg st = (o, st') ∧ Leaves S st e o ∧ st'.handler = st.handler ∧
      handlerCalls st'.log = handlerCalls st.log ++ (currentHandler S st.handler).toList.map (·, e) ∧
      written st'.log = written st.log ++ if Describes S st.handler then [e] else []) ∨
    (Undefined cfg st.reg op ∧ ∃ st', op.run S cfg st = (.ub, st') ∧ st'.handler = st.handler ∧ st'.log = st.log)

theorem run_cases (S : Setup) (cfg : Config) (op : LibOp) (st : EffState) : Ends S cfg op st := by
  have map_err : ∀ {α : Type} (x : Eff α) (f : α → LibVal) (e : Err) (st0 : EffState), x st = Eff.ofRes S (.err e) (st0 : EffState) → st0.handler = st.handler → st0.log = st.log →
      ∃ o st', (x >>= fun a => pure (f a)) st = (o, st') ∧ Leaves S st e o ∧ st'.handler = st.handler ∧
        handlerCalls st'.log = handlerCalls st.log ++ (currentHandler S st.handler).toList.map (·, e) ∧
        written st'.log = written st.log ++ if Describes S st.handler then [e] else [] := by
    intro α x f e st0 hx hh hl
    obtain ⟨o, st', ho, hlv, _, h2, h3, h4⟩ := ofRes_err_spec (S := S) (α := LibVal) e st0
    refine ⟨o, st', ?_, ?_, h2.trans hh, by rw [h3, hh, hl], by rw [h4, hh, hl]⟩
    · rw [← ho, ← congrFun (ofRes_err_bind (S := S) (α := α) e (fun a => pure (f a))) st0]
      show Eff.bind _ _ _ = Eff.bind _ _ _
      unfold Eff.bind
      rw [hx]
    · unfold Leaves at hlv ⊢
      rw [hh, hl] at hlv
      exact hlv
  have simple : ∀ {α : Type} (x : Res α) (f : α → LibVal), op.run S cfg st = (Eff.ofRes S x >>= fun a => pure (f a)) st →
      (∀ a, x = .ok a → Yields cfg st.reg st.handler op (f a) st.reg) → (∀ e, x = .err e → Reports cfg st.reg op e) → (x = .ub → Undefined cfg st.reg op) → Ends S cfg op st := by
    intro α x f hrun h1 h2 h3
    cases hx : x with
    | ok a =>
      refine .inl ⟨f a, st.reg, h1 a hx, st, ?_, rfl, rfl, fun _ => rfl⟩
      rw [hrun, hx]; rfl
    | err e =>
      refine .inr (.inl ⟨e, h2 e hx, ?_⟩)
      obtain ⟨o, st', h, hr⟩ := map_err (Eff.ofRes S x) f e st (by rw [hx]) rfl rfl
      exact ⟨o, st', hrun.trans h, hr⟩
    | ub =>
      refine .inr (.inr ⟨h3 hx, st, ?_, rfl, rfl⟩)
      rw [hrun, hx]; rfl
  cases op with
  | init E n p =>
    by_cases hn : 1 < n
    · refine .inr (.inl ⟨.odrViolation, .inl ⟨hn, rfl⟩, ?_⟩)
      exact map_err (initE S E n p) .report _ st (by rw [initE_odr hn]) rfl rfl
    · have hn := Nat.not_lt.1 hn
      have h := initE_eq (S := S) E hn p st
      cases hi : initRegistry E p st.reg with
      | ub =>
        rw [hi] at h
        obtain ⟨st', h, hh, hl⟩ := h
        refine .inr (.inr ⟨⟨hn, hi⟩, st', ?_, hh, hl⟩)
        show Eff.bind (initE S E n p) _ st = _
        unfold Eff.bind
        rw [h]
      | err e => rw [hi] at h; exact h.elim
      | ok r =>
        obtain ⟨s', r⟩ := r
        rw [hi] at h
        cases r with
        | ok rep =>
          refine .inl ⟨.report rep, s', ⟨hn, rep, rfl, hi⟩, st.withReg s', ?_, rfl, rfl, fun _ => rfl⟩
          show Eff.bind (initE S E n p) _ st = _
          unfold Eff.bind
          rw [h]; rfl
        | error e =>
          refine .inr (.inl ⟨e, .inr ⟨hn, s', hi⟩, ?_⟩)
          exact map_err (initE S E n p) .report e (st.withReg s') h rfl rfl
  | final E => exact .inl ⟨.unit, _, ⟨rfl, rfl⟩, _, rfl, rfl, rfl, fun _ => rfl⟩
  | call m args types =>
    refine simple (OpenMethod.call cfg st.reg m args types) .entered ?_ (fun a h => ⟨rfl, a, rfl, h⟩) (fun e h => h) (fun h => h)
    rw [← callE_eq]; rfl
  | virtualPtr t =>
    refine simple (makeVirtualPtr cfg st.reg t) .boxed ?_ (fun a h => ⟨rfl, a, rfl, h⟩) (fun e h => h) (fun h => h)
    rw [← makeVirtualPtrE_eq]; rfl
  | finalVirtualPtr poly t v q =>
    refine simple (VirtualPtr.final cfg st.reg poly t v q) .ptr ?_ (fun a h => ⟨rfl, a, rfl, h⟩) (fun e h => h) (fun h => h)
    rw [← finalVirtualPtrE_eq]; rfl
  | setHandler f => exact .inl ⟨.handler st.handler, st.reg, ⟨rfl, rfl⟩, _, rfl, rfl, rfl, fun h => absurd rfl (h f)⟩

/-! ## C43: errors never return -/

theorem report_spec {e : Err} (hd : Reports cfg st.reg op e) (h : op.run S cfg st = (o, st')) :
    Leaves S st e o ∧ handlerCalls st'.log = handlerCalls st.log ++ (currentHandler S st.handler).toList.map (·, e) ∧
      written st'.log = written st.log ++ if Describes S st.handler then [e] else [] := by
  rcases run_cases S cfg op st with ⟨v, s', hy, _⟩ | ⟨e', hd', o', st2, hrun, hl, _, hc⟩ | ⟨hu, _⟩
  · exfalso
    cases op with
    | init E n p =>
      obtain ⟨hn, r, _, hi⟩ := hy
      rcases hd with ⟨hn', _⟩ | ⟨_, s2, hi'⟩
      · exact absurd hn' (Nat.not_lt.2 hn)
      · rw [hi] at hi'; cases hi'
    | call m args types => obtain ⟨_, n, _, hc⟩ := hy; exact absurd (hc.symm.trans hd) (by simp)
    | virtualPtr t => obtain ⟨_, n, _, hc⟩ := hy; exact absurd (hc.symm.trans hd) (by simp)
    | finalVirtualPtr poly t v q => obtain ⟨_, n, _, hc⟩ := hy; exact absurd (hc.symm.trans hd) (by simp)
    | final E => exact hd
    | setHandler f => exact hd
  · have he : e = e' := by
      cases op with
      | init E n p =>
        rcases hd with ⟨hn, rfl⟩ | ⟨hn, s2, hi⟩
        · rcases hd' with ⟨_, rfl⟩ | ⟨hn', _⟩
          · rfl
          · exact absurd hn (Nat.not_lt.2 hn')
        · rcases hd' with ⟨hn', _⟩ | ⟨_, s2', hi'⟩
          · exact absurd hn' (Nat.not_lt.2 hn)
          · rw [hi] at hi'
            have := congrArg InitOut.result (Res.ok.inj hi')
            exact Except.error.inj this
      | call m args types => exact Res.err.inj (hd.symm.trans hd')
      | virtualPtr t => exact Res.err.inj (hd.symm.trans hd')
      | finalVirtualPtr poly t v q => exact Res.err.inj (hd.symm.trans hd')
      | final E => exact hd.elim
      | setHandler f => exact hd.elim
    subst he
    rw [h] at hrun
    obtain ⟨rfl, rfl⟩ := Prod.mk.inj hrun
    exact ⟨hl, hc⟩
  · exfalso
    cases op with
    | init E n p =>
      rcases hd with ⟨hn', _⟩ | ⟨_, s2, hi'⟩
      · exact absurd hn' (Nat.not_lt.2 hu.1)
      · rw [hu.2] at hi'; cases hi'
    | call m args types => exact absurd (hd.symm.trans hu) (by simp)
    | virtualPtr t => exact absurd (hd.symm.trans hu) (by simp)
    | finalVirtualPtr poly t v q => exact absurd (hd.symm.trans hu) (by simp)
    | final E => exact hd
    | setHandler f => exact hd

/-- C43: if an operation detects an error, the error handler, if there is one, is called exactly once, with that error; control leaves the library by an
exception thrown by the error handler, or because the error handler ends the program, or, in all other cases, by `abort`. -/
theorem C43 {e : Err} (hd : Reports cfg st.reg op e) (h : op.run S cfg st = (o, st')) :
    Leaves S st e o ∧ handlerCalls st'.log = handlerCalls st.log ++ (currentHandler S st.handler).toList.map (·, e) := by
  obtain ⟨h1, h2, _⟩ := report_spec hd h
  exact ⟨h1, h2⟩

/-- Conversely, if an operation returns to its caller then it has detected no error and no error handler was called; if it does not return, an error was detected,
except when the behaviour is undefined. -/
theorem C43_converse (h : op.run S cfg st = (o, st')) :
    (∀ v, o = .ret v → (∀ e, ¬ Reports cfg st.reg op e) ∧ handlerCalls st'.log = handlerCalls st.log ∧ Yields cfg st.reg st.handler op v st'.reg) ∧
    ((∀ v, o ≠ .ret v) → (∃ e, Reports cfg st.reg op e) ∨ Undefined cfg st.reg op) := by
  refine ⟨?_, ?_⟩
  · rintro v rfl
    have hnd : ∀ e, ¬ Reports cfg st.reg op e := fun e hd => (C43 hd h).1
    refine ⟨hnd, ?_⟩
    rcases run_cases S cfg op st with ⟨v', s', hy, st2, hrun, hr, hl, _⟩ | ⟨e', hd', _⟩ | ⟨_, st2, hrun, _⟩
    · rw [h] at hrun
      obtain ⟨e1, rfl⟩ := Prod.mk.inj hrun
      obtain rfl := Out.ret.inj e1
      rw [hl, hr]
      exact ⟨rfl, hy⟩
    · exact absurd hd' (hnd e')
    · rw [h] at hrun; cases (Prod.mk.inj hrun).1
  · intro hnr
    rcases run_cases S cfg op st with ⟨v', s', hy, st2, hrun, _⟩ | ⟨e', hd', _⟩ | ⟨hu, _⟩
    · rw [h] at hrun
      exact absurd (Prod.mk.inj hrun).1 (hnr v')
    · exact .inl ⟨e', hd'⟩
    · exact .inr hu

/-- An error handler that returns does not prevent the program from being aborted. -/
theorem C43_returns {e : Err} (hd : Reports cfg st.reg op e) (h : op.run S cfg st = (o, st')) (hp : S.policy = .custom) (hr : ∀ e l, S.custom e l = .returns) : o = .aborted := by
  obtain ⟨hl, _⟩ := C43 hd h
  cases o with
  | aborted => rfl
  | ret v => exact hl.elim
  | ub => exact hl.elim
  | thrown x =>
    rcases hl with ⟨h', _, _⟩ | ⟨h', _⟩ | h' | ⟨_, h'⟩
    · rw [hp] at h'; cases h'
    · rw [hp] at h'; cases h'
    · rw [hp] at h'; cases h'
    · rw [hr] at h'; cases h'
  | exited =>
    rcases hl with ⟨h', _, _⟩ | ⟨_, h'⟩
    · rw [hp] at h'; cases h'
    · rw [hr] at h'; cases h'

/-- With `throw_error_handler`, the error itself is thrown. -/
theorem C43_throw {e : Err} (hd : Reports cfg st.reg op e) (h : op.run S cfg st = (o, st')) (hp : S.policy = .throwing) : o = .thrown (.library e) := by
  obtain ⟨hl, _⟩ := C43 hd h
  cases o with
  | aborted => exact absurd (.library hp) (hl.1 (.library e))
  | ret v => exact hl.elim
  | ub => exact hl.elim
  | thrown x =>
    rcases hl with ⟨h', _, _⟩ | ⟨h', _⟩ | h' | ⟨h', _⟩
    · rw [hp] at h'; cases h'
    · rw [hp] at h'; cases h'
    · rfl
    · rw [hp] at h'; cases h'
  | exited => rcases hl with ⟨h', _, _⟩ | ⟨h', _⟩ <;> · rw [hp] at h'; cases h'

/-! ## C44: installing error handlers -/

theorem lastSet_snoc (f : Option Fn) (l : List (LibOp × Out LibVal)) (op : LibOp) (o : Out LibVal) :
    lastSet f (l ++ [(op, o)]) = match op with | .setHandler g => g | _ => lastSet f l := by
  unfold lastSet
  rw [List.reverse_append]
  cases op <;> simp

theorem run_handler (S : Setup) (cfg : Config) (op : LibOp) (st : EffState) (hop : ∀ g, op ≠ .setHandler g) : (op.run S cfg st).2.handler = st.handler := by
  rcases run_cases S cfg op st with ⟨_, _, _, st2, hrun, _, _, hh⟩ | ⟨_, _, _, _, hrun, _, hh, _⟩ | ⟨_, _, hrun, hh, _⟩
  · rw [hrun]; exact hh hop
  · rw [hrun]; exact hh
  · rw [hrun]; exact hh

theorem libRun_handler {l : List (LibOp × Out LibVal)} (h : LibRun S cfg st l st') : st'.handler = lastSet st.handler l := by
  induction h with
  | start => rfl
  | @step st1 st2 l op o _ hop _ ih =>
    rw [lastSet_snoc, ← ih]
    by_cases hs : ∃ g, op = .setHandler g
    · obtain ⟨g, rfl⟩ := hs
      exact congrArg (fun x => x.2.handler) hop.symm
    · have h := run_handler S cfg op st1 fun g e => hs ⟨g, e⟩
      rw [hop] at h
      cases op <;> first | exact h | exact absurd ⟨_, rfl⟩ hs

/-- C44: after any sequence of operations, including operations that fail and throw, `set` returns the function that was set last; and the next error is
passed to that function. -/
theorem C44 {l : List (LibOp × Out LibVal)} (h : LibRun S cfg st l st') :
    (∀ g, ∃ st2, (LibOp.setHandler g).run S cfg st' = (.ret (.handler (lastSet st.handler l)), st2) ∧ st2.reg = st'.reg ∧ st2.log = st'.log) ∧
    ∀ out e o st2, S.policy = .default out → Reports cfg st'.reg op e → op.run S cfg st' = (o, st2) →
      handlerCalls st2.log = handlerCalls st'.log ++ (lastSet st.handler l).toList.map (fun f => (.fn f, e)) := by
  have hh := libRun_handler h
  refine ⟨fun g => ⟨{ st' with handler := g }, ?_, rfl, rfl⟩, ?_⟩
  · rw [← hh]; rfl
  · intro out e o st2 hp hd hrun
    rw [(C43 hd hrun).2, hh]
    cases lastSet st.handler l <;> simp [currentHandler, hp]

/-! ## C52: error messages -/

/-- C52: the description of an error is written exactly once, to the output policy, if the default function is installed in `default_error_handler` and there
is an output policy; otherwise, and when there is no error, nothing is written. -/
theorem C52 (h : op.run S cfg st = (o, st')) :
    (∀ e, Reports cfg st.reg op e → written st'.log = written st.log ++ if Describes S st.handler then [e] else []) ∧
    ((∀ e, ¬ Reports cfg st.reg op e) → written st'.log = written st.log) := by
  refine ⟨fun e hd => (report_spec hd h).2.2, fun hnd => ?_⟩
  rcases run_cases S cfg op st with ⟨v', s', hy, st2, hrun, _, hl, _⟩ | ⟨e', hd', _⟩ | ⟨_, st2, hrun, _, hl⟩
  · rw [h] at hrun
    obtain ⟨_, rfl⟩ := Prod.mk.inj hrun
    rw [hl]
  · exact absurd hd' (hnd e')
  · rw [h] at hrun
    obtain ⟨_, rfl⟩ := Prod.mk.inj hrun
    rw [hl]

/-! ## Examples -/

/-- A registry with `default_error_handler`; the user's functions throw their number, except function 0, which returns. -/
def throwers : Setup where
  policy := .default true
  user n _ _ := if n = 0 then .returns else .throws n
  custom _ _ := .returns

def startState : EffState := { reg := .init, handler := some .default, log := [] }

/-- What happens, for a list of operations; the state of the registry is left out. -/
def traceLib (S : Setup) (cfg : Config) : EffState → List LibOp → List (Out LibVal) × List Event
  | st, [] => ([], st.log)
  | st, op :: ops =>
    match op.run S cfg st with
    | (o, st') =>
      match o with
      | .ret _ | .thrown _ => ((o :: (traceLib S cfg st' ops).1), (traceLib S cfg st' ops).2)
      | _ => ([o], st'.log)

/-- A call before `initialize`, with function 7 as a handler, then with function 0. -/
example : traceLib throwers mapped startState [.setHandler (some (.user 7)), .call poke [.obj 0, .obj 4, .obj 0] [4], .setHandler (some (.user 0)), .virtualPtr 4, .setHandler none] =
    ([.ret (.handler (some .default)), .thrown (.user 7), .ret (.handler (some (.user 7))), .aborted],
      [.called (.fn (.user 7)) .notInitialized, .called (.fn (.user 0)) .notInitialized]) := by decide +kernel

/-- An error in `initialize`, then success, a call, and `final_virtual_ptr` with the wrong class. -/
example : traceLib throwers mapped startState [.setHandler (some (.user 7)), .init (env mapped) 1 (prog [cls 2 [1]] []), .init (env mapped) 2 zoo, .init (env mapped) 1 zoo,
      .call poke [.obj 0, .obj 4, .obj 0] [4], .setHandler (some .default), .finalVirtualPtr true 2 2 (some ⟨0, 4⟩)] =
    ([.ret (.handler (some .default)), .thrown (.user 7), .thrown (.user 7), .ret (.report ⟨9, 1, 1⟩), .ret (.entered 14), .ret (.handler (some (.user 7))), .aborted],
      [.called (.fn (.user 7)) (.missingClass 1), .called (.fn (.user 7)) .odrViolation, .called (.fn .default) (.finalError 2 4), .wrote (.finalError 2 4)]) := by
  decide +kernel

end OpenMethod.Props
