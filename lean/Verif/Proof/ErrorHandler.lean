import Verif.SpecError

/-! # Lemmas about error handling -/

namespace OpenMethod

variable {S : Setup} {α β γ : Type}

namespace Eff

theorem bind_def (x : Eff α) (f : α → Eff β) : (x >>= f) = Eff.bind x f := rfl

@[simp] theorem pure_bind (a : α) (f : α → Eff β) : ((pure a : Eff α) >>= f) = f a := rfl

@[simp] theorem bind_pure (x : Eff α) : (x >>= pure) = x := by
  funext s
  show Eff.bind x pure s = x s
  unfold Eff.bind
  rcases x s with ⟨o, s'⟩
  cases o <;> rfl

@[simp] theorem bind_assoc (x : Eff α) (f : α → Eff β) (g : β → Eff γ) : ((x >>= f) >>= g) = (x >>= fun a => f a >>= g) := by
  funext s
  show Eff.bind (Eff.bind x f) g s = Eff.bind x (fun a => Eff.bind (f a) g) s
  unfold Eff.bind
  rcases x s with ⟨o, s'⟩
  cases o <;> rfl

@[simp] theorem ub_bind (f : α → Eff β) : ((ub : Eff α) >>= f) = ub := rfl

@[simp] theorem abort_bind (f : α → Eff β) : ((abort : Eff α) >>= f) = abort := rfl

instance : LawfulMonad Eff := LawfulMonad.mk' Eff
  (id_map := fun x => by show (x >>= pure) = x; simp)
  (pure_bind := fun a f => rfl)
  (bind_assoc := fun x f g => bind_assoc x f g)

end Eff

/-- Reporting an error does not return. -/
theorem reportError_bind (e : Err) (k k' : Unit → Eff α) : (reportError S e >>= k) = (reportError S e >>= k') := by
  unfold reportError
  split <;> simp

theorem reportError_eq (e : Err) : reportError S e = Eff.ofRes S (.err e) := by
  have := reportError_bind (S := S) (α := Unit) e pure (fun _ => Eff.ub)
  rw [Eff.bind_pure] at this
  exact this

@[simp] theorem ofRes_ok (a : α) : Eff.ofRes S (.ok a) = pure a := rfl
@[simp] theorem ofRes_ub : Eff.ofRes S (.ub : Res α) = Eff.ub := rfl

theorem report_then (e : Err) (k : Unit → Eff α) : (reportError S e >>= k) = Eff.ofRes S (.err e) := reportError_bind e k _

theorem ofRes_err_bind (e : Err) (f : α → Eff β) : (Eff.ofRes S (.err e) >>= f) = Eff.ofRes S (.err e) := by
  show ((reportError S e >>= fun _ => Eff.ub) >>= f) = _
  rw [Eff.bind_assoc]
  exact report_then e _

theorem ofRes_bind (x : Res α) (f : α → Res β) : Eff.ofRes S (x >>= f) = (Eff.ofRes S x >>= fun a => Eff.ofRes S (f a)) := by
  cases x with
  | ok a => rfl
  | err e => rw [ofRes_err_bind]; rfl
  | ub => rfl

theorem ofRes_ofOption (o : Option α) : Eff.ofOption o = Eff.ofRes S (Res.ofOption o) := by cases o <;> rfl

theorem ofRes_foldlM {f : β → α → Res β} {g : β → α → Eff β} (h : ∀ b a, g b a = Eff.ofRes S (f b a)) (l : List α) (b : β) :
    l.foldlM g b = Eff.ofRes S (l.foldlM f b) := by
  induction l generalizing b with
  | nil => rfl
  | cons a l ih =>
    rw [List.foldlM_cons, List.foldlM_cons, ofRes_bind, h]
    congr 1
    funext b
    exact ih b

/-! ## Calls -/

theorem requireInitializedE_eq (cfg : Config) (s : RegState) : requireInitializedE S cfg s = Eff.ofRes S (requireInitialized cfg s) := by
  unfold requireInitializedE requireInitialized
  cases cfg.checks <;> cases s.initialized <;> simp [reportError_eq]

theorem hashCheckE_eq (s : HashState) (i : Nat) (t : TypeId) : hashCheckE S s i t = Eff.ofRes S (hashCheck s i t) := by
  unfold hashCheckE hashCheck
  split
  · exact reportError_eq _
  · cases s.buckets[i]? with
    | none => rfl
    | some b =>
      simp only [Eff.ofOption, Eff.pure_bind]
      split
      · exact reportError_eq _
      · rfl

theorem hashE_eq (checks : Bool) (s : HashState) (t : TypeId) : hashE S checks s t = Eff.ofRes S (hash checks s t) := by
  unfold hashE hash
  cases checks with
  | false => rfl
  | true =>
    simp only [if_true]
    rw [ofRes_bind, hashCheckE_eq]
    rfl

theorem refE_eq (cfg : Config) (x : Stored) : x.refE cfg = Eff.ofRes S (x.ref cfg) := by
  cases x <;> simp only [Stored.refE, Stored.ref]
  · split <;> rfl
  · rfl
  · rfl

theorem vecIndex_eq (cfg : Config) (h : HashState) (t : TypeId) : Eff.ofRes S (vecIndex cfg h t) = (if cfg.typeHash then hashE S cfg.checks h t else pure t.toNat) := by
  unfold vecIndex
  split
  · rw [hashE_eq]
  · rfl

theorem dynamicVptrE_eq (cfg : Config) (s : VptrState) (t : TypeId) : dynamicVptrE S cfg s t = Eff.ofRes S (dynamicVptr cfg s t) := by
  unfold dynamicVptrE dynamicVptr
  cases hv : cfg.vector with
  | true =>
    simp only [if_true]
    rw [ofRes_bind, vecIndex_eq]
    unfold vectorVptrE
    cases hh : cfg.typeHash with
    | true =>
      simp only [if_true]
      congr 1
      funext i
      simp only [Bool.not_true, Bool.false_and, Bool.false_eq_true, if_false]
      cases s.vec[i]? with
      | none => rfl
      | some x => exact refE_eq cfg x
    | false =>
      simp only [Bool.false_eq_true, if_false, Eff.pure_bind, Bool.not_false, Bool.true_and]
      cases hc : cfg.checks with
      | true =>
        simp only [if_true, Bool.true_and, decide_eq_true_eq]
        split
        · exact report_then _ _
        · cases s.vec[t.toNat]? with
          | none => rfl
          | some x => exact refE_eq cfg x
      | false =>
        simp only [Bool.false_and, Bool.false_eq_true, if_false]
        cases s.vec[t.toNat]? with
        | none => rfl
        | some x => exact refE_eq cfg x
  | false =>
    simp only [Bool.false_eq_true, if_false]
    unfold mapVptrE
    cases s.map.find? (fun y => y.1 == t) with
    | none =>
      cases cfg.checks with
      | true => simp only [if_true, Option.isNone_none]; exact report_then _ _
      | false => simp [Eff.ofOption]
    | some x =>
      cases cfg.checks <;> simp [Eff.ofOption, refE_eq (S := S)]

theorem acquireVptrE_eq (cfg : Config) (s : RegState) (t : TypeId) : acquireVptrE S cfg s t = Eff.ofRes S (acquireVptr cfg s t) := by
  unfold acquireVptrE acquireVptr
  rw [ofRes_bind, requireInitializedE_eq, dynamicVptrE_eq]

theorem makeVirtualPtrE_eq (cfg : Config) (s : RegState) (t : TypeId) : makeVirtualPtrE S cfg s t = Eff.ofRes S (makeVirtualPtr cfg s t) := by
  unfold makeVirtualPtrE makeVirtualPtr
  rw [ofRes_bind, acquireVptrE_eq]

theorem finalVirtualPtrE_eq (cfg : Config) (s : RegState) (poly : Bool) (st : TypeId) (v : VarId) (q : Option Obj) :
    finalVirtualPtrE S cfg s poly st v q = Eff.ofRes S (VirtualPtr.final cfg s poly st v q) := by
  unfold finalVirtualPtrE VirtualPtr.final
  rw [ofRes_bind, requireInitializedE_eq]
  congr 1
  funext _
  cases (cfg.checks && poly) with
  | false =>
    simp only [Bool.false_eq_true, if_false]
    cases s.svptr v <;> rfl
  | true =>
    simp only [if_true]
    cases q with
    | none => rfl
    | some o =>
      simp only [Eff.ofOption, Eff.pure_bind, Res.ofOption_some, Res.ok_bind]
      split
      · simp only [Res.err_bind]; exact report_then _ _
      · cases s.svptr v <;> rfl

theorem argPtrE_eq (cfg : Config) (s : RegState) (a : Arg) : argPtrE S cfg s a = Eff.ofRes S (argPtr cfg s a) := by
  cases a with
  | obj t =>
    simp only [argPtrE, argPtr]
    rw [ofRes_bind, acquireVptrE_eq]
    congr 1
    funext r
    exact ofRes_ofOption _
  | vptr b => exact ofRes_ofOption _

theorem resolveUniE_eq (rd : Ptr → Res Word) (ss : List Nat) (ks : List Bool) (as : List (Res Ptr)) :
    resolveUniE S rd ss ks (as.map (Eff.ofRes S)) = Eff.ofRes S (resolveUni rd ss ks as) := by
  induction ks generalizing as with
  | nil => rfl
  | cons k ks ih =>
    cases as with
    | nil => cases k <;> rfl
    | cons a as =>
      cases k with
      | true =>
        simp only [List.map_cons, resolveUniE, resolveUni, ofRes_bind, ofRes_ofOption (S := S)]
      | false => exact ih as

theorem nextDispatchE_eq (rd : Ptr → Res Word) (ss : List Nat) (arity va : Nat) (d : Ptr) (k : Bool) (a : Res Ptr) :
    nextDispatchE S rd ss arity va d k (Eff.ofRes S a) = Eff.ofRes S (nextDispatch rd ss arity va d k a) := by
  unfold nextDispatchE nextDispatch
  cases k with
  | true => simp only [if_true, ofRes_bind, ofRes_ofOption (S := S), ofRes_ok]
  | false => rfl

theorem resolveMultiNextE_eq (rd : Ptr → Res Word) (ss : List Nat) (arity : Nat) (ks : List Bool) (as : List (Res Ptr)) (va : Nat) (d : Ptr) :
    resolveMultiNextE S rd ss arity va d ks (as.map (Eff.ofRes S)) = Eff.ofRes S (resolveMultiNext rd ss arity va d ks as) := by
  induction ks generalizing as va d with
  | nil => rfl
  | cons k ks ih =>
    cases as with
    | nil => rfl
    | cons a as =>
      simp only [List.map_cons, resolveMultiNextE, resolveMultiNext, ofRes_bind, nextDispatchE_eq]
      congr 1
      funext d
      split
      · rfl
      · exact ih as _ d

theorem resolveMultiFirstE_eq (rd : Ptr → Res Word) (ss : List Nat) (arity : Nat) (ks : List Bool) (as : List (Res Ptr)) :
    resolveMultiFirstE S rd ss arity ks (as.map (Eff.ofRes S)) = Eff.ofRes S (resolveMultiFirst rd ss arity ks as) := by
  induction ks generalizing as with
  | nil => rfl
  | cons k ks ih =>
    cases as with
    | nil => cases k <;> rfl
    | cons a as =>
      cases k with
      | true => simp only [List.map_cons, resolveMultiFirstE, resolveMultiFirst, ofRes_bind, ofRes_ofOption (S := S), resolveMultiNextE_eq]
      | false => exact ih as

theorem resolveE_eq (rd : Ptr → Res Word) (ss : List Nat) (arity : Nat) (ks : List Bool) (as : List (Res Ptr)) :
    resolveE S rd ss arity ks (as.map (Eff.ofRes S)) = Eff.ofRes S (resolve rd ss arity ks as) := by
  unfold resolveE resolve
  simp only
  split
  · rw [ofRes_bind, resolveUniE_eq]
  · rw [ofRes_bind, resolveMultiFirstE_eq]

theorem enterE_eq (f : Pf) (types : List TypeId) : enterE S f types = Eff.ofRes S (enter f types) := by
  cases f <;> rfl

theorem callE_eq (cfg : Config) (s : RegState) (m : MethodInfo) (args : List Arg) (types : List TypeId) :
    callE S cfg s m args types = Eff.ofRes S (call cfg s m args types) := by
  unfold callE call
  have hmap : args.map (argPtrE S cfg s) = (args.map (argPtr cfg s)).map (Eff.ofRes S) := by
    rw [List.map_map]
    exact List.map_congr_left fun a _ => argPtrE_eq cfg s a
  simp only [ofRes_bind, requireInitializedE_eq, ofRes_ofOption (S := S), hmap, resolveE_eq, enterE_eq]

/-! ## initialize -/

theorem addBaseE_eq (r : Rtti) (c : Cls) (s : Lattice) (t : TypeId) : addBaseE S r c s t = Eff.ofRes S (addBase r c s t) := by
  unfold addBaseE addBase
  simp only
  split
  · rfl
  · split <;> rfl

theorem addBasesE_eq (r : Rtti) (s : Lattice) (cr : ClassInfo) : addBasesE S r s cr = Eff.ofRes S (addBases r s cr) :=
  ofRes_foldlM (fun _ _ => addBaseE_eq ..) _ _

theorem augmentClassesE_eq (pl : Platform) (r : Rtti) (cs : List ClassInfo) : augmentClassesE S pl r cs = Eff.ofRes S (augmentClasses pl r cs) := by
  unfold augmentClassesE augmentClasses
  simp only [ofRes_bind, ofRes_foldlM (S := S) (addBasesE_eq (S := S) r)]
  rfl

theorem findClassE_eq (r : Rtti) (L : Lattice) (t : TypeId) : findClassE S r L t = Eff.ofRes S (findClass r L t) := by
  unfold findClassE findClass
  by_cases h : r.ti t ∈ L.order
  · rw [if_neg (by simp [h]), if_pos h]; rfl
  · rw [if_pos h, if_neg h]; rfl

theorem findClassesE_eq (r : Rtti) (L : Lattice) (ts : List TypeId) : findClassesE S r L ts = Eff.ofRes S (findClasses r L ts) := by
  induction ts with
  | nil => rfl
  | cons t ts ih => simp only [findClassesE, findClasses, ofRes_bind, findClassE_eq, ih]; rfl

theorem augmentOverriderE_eq (r : Rtti) (L : Lattice) (mret : Option Cls) (o : OverriderInfo) :
    augmentOverriderE S r L mret o = Eff.ofRes S (augmentOverrider r L mret o) := by
  cases mret <;> simp only [augmentOverriderE, augmentOverrider, ofRes_bind, findClassesE_eq, findClassE_eq] <;> rfl

theorem augmentOverridersE_eq (r : Rtti) (L : Lattice) (mret : Option Cls) (os : List OverriderInfo) :
    augmentOverridersE S r L mret os = Eff.ofRes S (augmentOverriders r L mret os) := by
  induction os with
  | nil => rfl
  | cons t ts ih => simp only [augmentOverridersE, augmentOverriders, ofRes_bind, augmentOverriderE_eq, ih]; rfl

theorem augmentMethodE_eq (r : Rtti) (L : Lattice) (m : MethodInfo) : augmentMethodE S r L m = Eff.ofRes S (augmentMethod r L m) := by
  simp only [augmentMethodE, augmentMethod, ofRes_bind, findClassesE_eq, augmentOverridersE_eq]; rfl

theorem augmentMethodsE_eq (r : Rtti) (L : Lattice) (ms : List MethodInfo) : augmentMethodsE S r L ms = Eff.ofRes S (augmentMethods r L ms) := by
  induction ms with
  | nil => rfl
  | cons t ts ih => simp only [augmentMethodsE, augmentMethods, ofRes_bind, augmentMethodE_eq, ih]; rfl

theorem checkOverriderE_eq (L : Lattice) (vp : Cls) (k : Nat) (o : Ovr) : checkOverriderE S L vp k o = Eff.ofRes S (checkOverrider L vp k o) := by
  unfold checkOverriderE checkOverrider
  rw [ofRes_bind, ofRes_ofOption (S := S)]
  congr 1
  funext c
  split
  · rfl
  · by_cases h : c ∈ L.td vp
    · rw [if_neg (by simp [h]), if_pos h]; rfl
    · rw [if_pos h, if_neg h]
      simp only [ofRes_bind, ofRes_ofOption (S := S), reportError_eq]

theorem checkParamE_eq (L : Lattice) (os : List Ovr) (vk : Cls × Nat) : checkParamE S L os vk = Eff.ofRes S (checkParam L os vk) :=
  ofRes_foldlM (fun _ o => checkOverriderE_eq L vk.1 vk.2 o) _ _

theorem checkMethodE_eq (L : Lattice) (m : Meth) : checkMethodE S L m = Eff.ofRes S (checkMethod L m) :=
  ofRes_foldlM (fun _ vk => checkParamE_eq L m.overriders vk) _ _

theorem checkMethodsE_eq (L : Lattice) (ms : List Meth) : checkMethodsE S L ms = Eff.ofRes S (checkMethods L ms) :=
  ofRes_foldlM (fun _ m => checkMethodE_eq L m) _ _

theorem augmentE_eq (r : Rtti) (L : Lattice) (ms : List MethodInfo) : augmentE S r L ms = Eff.ofRes S (augment r L ms) := by
  simp only [augmentE, augment, ofRes_bind, augmentMethodsE_eq, checkMethodsE_eq]; rfl

theorem compileE_eq (pl : Platform) (n2216 : Bool) (p : Program) : compileE S pl n2216 p = Eff.ofRes S (compile pl n2216 p) := by
  simp only [compileE, compile, ofRes_bind, augmentClassesE_eq, augmentE_eq]; rfl

theorem storeVecE_eq (cfg : Config) (h : HashState) (vec : List Stored) (x : TypeId × Stored) : storeVecE S cfg h vec x = Eff.ofRes S (storeVec cfg h vec x) := by
  unfold storeVecE storeVec
  rw [ofRes_bind, vecIndex_eq]
  cases cfg.typeHash with
  | true =>
    simp only [if_true]
    congr 1
    funext i
    split <;> rfl
  | false =>
    simp only [Bool.false_eq_true, if_false, Eff.pure_bind]
    split <;> rfl

theorem fillVecE_eq (cfg : Config) (mem : VarId → Option Ptr) (cs : List CtxClass) (s : VptrState) (size : Nat) :
    fillVecE S cfg mem cs s size = Eff.ofRes S (fillVec cfg mem cs s size >>= fun r => .ok r.state) := by
  unfold fillVecE fillVec
  rw [ofRes_bind, ofRes_bind, ofRes_foldlM (storeVecE_eq cfg s.hash), Eff.bind_assoc]
  rfl

theorem fillVec_error {cfg : Config} {mem : VarId → Option Ptr} {cs : List CtxClass} {s : VptrState} {size : Nat} {r : VptrResult}
    (h : fillVec cfg mem cs s size = .ok r) : r.error = none := by
  unfold fillVec at h
  obtain ⟨vec, _, h⟩ := Res.bind_eq_ok.1 h
  rw [← Res.ok.inj h]

/-- The result of `vptr::initialize`, seen from state `st` of which the registry is `reg`. -/
theorem vptrInitE_eq (cfg : Config) (rnd : Nat → BitVec 64) (cs : List CtxClass) (reg : RegState) (st : EffState) (hst : st.reg = reg) :
    match vptrInit cfg rnd reg.svptr cs reg.vptr with
    | .ok { state := v, error := none } => vptrInitE S cfg rnd cs reg st = (.ret v, st)
    | .ok { state := v, error := some e } => vptrInitE S cfg rnd cs reg st = Eff.ofRes S (.err e) { st with reg := { reg with vptr := v } }
    | .err e => vptrInitE S cfg rnd cs reg st = Eff.ofRes S (.err e) st
    | .ub => vptrInitE S cfg rnd cs reg st = (.ub, st) := by
  have hfill : ∀ (s : VptrState) (size : Nat),
      match fillVec cfg reg.svptr cs s size with
      | .ok { state := v, error := none } => fillVecE S cfg reg.svptr cs s size st = (.ret v, st)
      | .ok { state := v, error := some e } => fillVecE S cfg reg.svptr cs s size st = Eff.ofRes S (.err e) { st with reg := { reg with vptr := v } }
      | .err e => fillVecE S cfg reg.svptr cs s size st = Eff.ofRes S (.err e) st
      | .ub => fillVecE S cfg reg.svptr cs s size st = (.ub, st) := by
    intro s size
    rw [fillVecE_eq]
    cases h : fillVec cfg reg.svptr cs s size with
    | ok r =>
      have := fillVec_error h
      obtain ⟨v, e⟩ := r
      subst this
      rfl
    | err e => rfl
    | ub => rfl
  unfold vptrInit vptrInitE
  cases cfg.vector with
  | false => simp only [Bool.false_eq_true, if_false]; rfl
  | true =>
    cases cfg.typeHash with
    | false => simp only [if_true, Bool.false_eq_true, if_false]; exact hfill _ _
    | true =>
      simp only [if_true]
      cases h : hashInit rnd cs.length (cs.flatMap (·.ids)) (bucketsBefore cfg reg.vptr.hash) with
      | ok r =>
        cases r with
        | found h => exact hfill _ _
        | failed a b h =>
          show _ = Eff.ofRes S (.err (.searchError a b)) _
          rw [← hst]
          rfl
      | err e => rw [ofRes_err_bind]; rfl
      | ub => rfl

/-- The error is reported while the registry is in state `r`. -/
def EffState.withReg (st : EffState) (r : RegState) : EffState := { st with reg := r }

theorem initE_odr {E : Env} {n : Nat} (hn : 1 < n) (p : Program) : initE S E n p = Eff.ofRes S (.err .odrViolation) := by
  unfold initE
  rw [if_pos hn]
  exact report_then _ _

theorem initE_eq (E : Env) {n : Nat} (hn : n ≤ 1) (p : Program) (st : EffState) :
    match initRegistry E p st.reg with
    | .ok { state := s', result := .ok rep } => initE S E n p st = (.ret rep, st.withReg s')
    | .ok { state := s', result := .error e } => initE S E n p st = Eff.ofRes S (.err e) (st.withReg s')
    | .err _ => False
    | .ub => ∃ st', initE S E n p st = (.ub, st') ∧ st'.handler = st.handler ∧ st'.log = st.log := by
  have h0 : initE S E n p st = (compileE S E.platform E.n2216 p >>= fun c => do
      let s := (← Eff.get).reg
      let img ← Eff.ofRes S (writeGlobal c s.fresh)
      let s1 := applyImage c.lattice img s
      Eff.setReg s1
      let v ← vptrInitE S E.cfg E.rnd (ctxClasses c.lattice) s1
      Eff.setReg { s1 with vptr := v, data := img.data, gen := s.fresh, initialized := true }
      return c.report) st := by
    unfold initE
    rw [if_neg (Nat.not_lt.2 hn)]
  rw [h0, compileE_eq]
  unfold initRegistry
  cases hc : compile E.platform E.n2216 p with
  | ub => exact ⟨st, rfl, rfl, rfl⟩
  | err e => simp only; rw [ofRes_err_bind]; rfl
  | ok c =>
    have h1 : (Eff.ofRes S (.ok c) >>= fun c => do
        let s := (← Eff.get).reg
        let img ← Eff.ofRes S (writeGlobal c s.fresh)
        let s1 := applyImage c.lattice img s
        Eff.setReg s1
        let v ← vptrInitE S E.cfg E.rnd (ctxClasses c.lattice) s1
        Eff.setReg { s1 with vptr := v, data := img.data, gen := s.fresh, initialized := true }
        return c.report) st = (Eff.ofRes S (writeGlobal c st.reg.fresh) >>= fun img => do
        Eff.setReg (applyImage c.lattice img st.reg)
        let v ← vptrInitE S E.cfg E.rnd (ctxClasses c.lattice) (applyImage c.lattice img st.reg)
        Eff.setReg { applyImage c.lattice img st.reg with vptr := v, data := img.data, gen := st.reg.fresh, initialized := true }
        return c.report) st := rfl
    rw [h1]
    simp only
    cases hw : writeGlobal c st.reg.fresh with
    | ub => exact ⟨st, rfl, rfl, rfl⟩
    | err e => simp only; rw [ofRes_err_bind]; rfl
    | ok img =>
      simp only [ofRes_ok, Eff.pure_bind]
      have hv := vptrInitE_eq (S := S) E.cfg E.rnd (ctxClasses c.lattice) (applyImage c.lattice img st.reg) (st.withReg (applyImage c.lattice img st.reg)) rfl
      have h2 : (Eff.setReg (applyImage c.lattice img st.reg) >>= fun _ => do
          let v ← vptrInitE S E.cfg E.rnd (ctxClasses c.lattice) (applyImage c.lattice img st.reg)
          Eff.setReg { applyImage c.lattice img st.reg with vptr := v, data := img.data, gen := st.reg.fresh, initialized := true }
          return c.report) st = (vptrInitE S E.cfg E.rnd (ctxClasses c.lattice) (applyImage c.lattice img st.reg) >>= fun v => do
          Eff.setReg { applyImage c.lattice img st.reg with vptr := v, data := img.data, gen := st.reg.fresh, initialized := true }
          return c.report) (st.withReg (applyImage c.lattice img st.reg)) := rfl
      rw [h2]
      cases hi : vptrInit E.cfg E.rnd (applyImage c.lattice img st.reg).svptr (ctxClasses c.lattice) (applyImage c.lattice img st.reg).vptr with
      | ub =>
        rw [hi] at hv
        refine ⟨st.withReg (applyImage c.lattice img st.reg), ?_, rfl, rfl⟩
        show Eff.bind _ _ _ = _
        unfold Eff.bind
        rw [hv]
      | err e =>
        rw [hi] at hv
        show Eff.bind _ _ _ = _
        have : Eff.bind (Eff.ofRes S (.err e)) (fun v => do
          Eff.setReg { applyImage c.lattice img st.reg with vptr := v, data := img.data, gen := st.reg.fresh, initialized := true }
          return c.report) (st.withReg (applyImage c.lattice img st.reg)) = Eff.ofRes S (.err e) (st.withReg (applyImage c.lattice img st.reg)) :=
          congrFun (ofRes_err_bind e _) _
        rw [← this]
        unfold Eff.bind
        rw [hv]
      | ok r =>
        obtain ⟨v, eo⟩ := r
        rw [hi] at hv
        cases eo with
        | none =>
          show Eff.bind _ _ _ = _
          unfold Eff.bind
          rw [hv]
          rfl
        | some e =>
          show Eff.bind _ _ _ = _
          have : Eff.bind (Eff.ofRes S (.err e)) (fun v => do
            Eff.setReg { applyImage c.lattice img st.reg with vptr := v, data := img.data, gen := st.reg.fresh, initialized := true }
            return c.report) (st.withReg { applyImage c.lattice img st.reg with vptr := v }) =
              Eff.ofRes S (.err e) (st.withReg { applyImage c.lattice img st.reg with vptr := v }) :=
            congrFun (ofRes_err_bind e _) _
          rw [← this]
          unfold Eff.bind
          rw [hv]
          rfl

/-! ## Reports -/

theorem handlerCalls_append (l l' : List Event) : handlerCalls (l ++ l') = handlerCalls l ++ handlerCalls l' := List.filterMap_append

/-- What happens when an error is reported. -/
theorem ofRes_err_spec (e : Err) (st : EffState) :
    ∃ o st', Eff.ofRes S (.err e : Res α) st = (o, st') ∧ Leaves S st e o ∧ st'.reg = st.reg ∧ st'.handler = st.handler ∧
      handlerCalls st'.log = handlerCalls st.log ++ (currentHandler S st.handler).toList.map (·, e) ∧
      written st'.log = written st.log ++ if Describes S st.handler then [e] else [] := by
  have hun : Eff.ofRes S (.err e : Res α) = (if S.policy.hasHandler then handlerError S e >>= fun _ => Eff.abort else Eff.abort) := by
    show (reportError S e >>= fun _ => Eff.ub) = _
    unfold reportError
    split <;> simp
  rw [hun]
  obtain ⟨pol, user, custom⟩ := S
  cases pol with
  | none =>
    refine ⟨.aborted, st, rfl, ⟨?_, ?_⟩, rfl, rfl, by simp [currentHandler], by simp [Describes]⟩
    · rintro x (⟨h, _, _⟩ | ⟨h, _⟩ | h | ⟨h, _⟩) <;> cases h
    · rintro (⟨h, _, _⟩ | ⟨h, _⟩) <;> cases h
  | default out =>
    rcases hst : st.handler with _ | f
    · refine ⟨.thrown .badFunctionCall, st, ?_, .empty rfl hst, rfl, hst, by simp [currentHandler], by simp [Describes]⟩
      show Eff.bind _ _ _ = _
      simp [Eff.bind, handlerError, Eff.bind_def, Eff.get, hst, Eff.throw]
    · have hrun : handlerError ⟨.default out, user, custom⟩ e st = (match f with
          | .default => defaultHandler out e
          | .user n => Eff.get >>= fun s => Eff.ending (user n e s.log)) { st with log := st.log ++ [Event.called (.fn f) e] } := by
        simp only [handlerError, Eff.bind_def, Eff.bind, Eff.get, hst, Eff.event]
        cases f <;> rfl
      show ∃ o st', Eff.bind (handlerError ⟨.default out, user, custom⟩ e) (fun _ => Eff.abort) st = (o, st') ∧ _
      unfold Eff.bind
      rw [hrun]
      cases f with
      | default =>
        cases out with
        | true =>
          refine ⟨.aborted, _, rfl, ⟨?_, ?_⟩, rfl, hst, ?_, ?_⟩
          · rintro x (⟨_, h, _⟩ | ⟨_, h⟩ | h | ⟨h, _⟩)
            · rw [hst] at h; cases h
            · rw [hst] at h; cases h
            · cases h
            · cases h
          · rintro (⟨_, h, _⟩ | ⟨h, _⟩)
            · rw [hst] at h; cases h
            · cases h
          · simp [currentHandler, handlerCalls]
          · simp [Describes, written]
        | false =>
          refine ⟨.aborted, _, rfl, ⟨?_, ?_⟩, rfl, hst, ?_, ?_⟩
          · rintro x (⟨_, h, _⟩ | ⟨_, h⟩ | h | ⟨h, _⟩)
            · rw [hst] at h; cases h
            · rw [hst] at h; cases h
            · cases h
            · cases h
          · rintro (⟨_, h, _⟩ | ⟨h, _⟩)
            · rw [hst] at h; cases h
            · cases h
          · simp [currentHandler, handlerCalls]
          · simp [Describes, written]
      | user n =>
        simp only [Eff.bind_def, Eff.bind, Eff.get]
        cases hend : user n e (st.log ++ [.called (.fn (.user n)) e]) with
        | returns =>
          refine ⟨.aborted, _, rfl, ⟨?_, ?_⟩, rfl, hst, ?_, ?_⟩
          · rintro x (⟨_, h, h'⟩ | ⟨_, h⟩ | h | ⟨h, _⟩)
            · rw [hst] at h
              obtain rfl := Fn.user.inj (Option.some.inj h)
              exact absurd (hend.symm.trans h') (by simp)
            · rw [hst] at h; cases h
            · cases h
            · cases h
          · rintro (⟨_, h, h'⟩ | ⟨h, _⟩)
            · rw [hst] at h
              obtain rfl := Fn.user.inj (Option.some.inj h)
              exact absurd (hend.symm.trans h') (by simp)
            · cases h
          · simp [currentHandler, handlerCalls]
          · simp [Describes, written]
        | throws k =>
          exact ⟨.thrown (.user k), _, rfl, .user rfl hst hend, rfl, hst, by simp [currentHandler, handlerCalls], by simp [Describes, written]⟩
        | exits =>
          exact ⟨.exited, _, rfl, .user rfl hst hend, rfl, hst, by simp [currentHandler, handlerCalls], by simp [Describes, written]⟩
  | throwing =>
    exact ⟨.thrown (.library e), _, rfl, .library rfl, rfl, rfl, by simp [currentHandler, handlerCalls], by simp [Describes, written]⟩
  | custom =>
    show ∃ o st', Eff.bind (handlerError ⟨.custom, user, custom⟩ e) (fun _ => Eff.abort) st = (o, st') ∧ _
    have hrun : handlerError ⟨.custom, user, custom⟩ e st = Eff.ending (custom e (st.log ++ [.called .policy e])) { st with log := st.log ++ [Event.called .policy e] } := rfl
    unfold Eff.bind
    rw [hrun]
    cases hend : custom e (st.log ++ [.called .policy e]) with
    | returns =>
      refine ⟨.aborted, _, rfl, ⟨?_, ?_⟩, rfl, rfl, ?_, ?_⟩
      · rintro x (⟨h, _, _⟩ | ⟨h, _⟩ | h | ⟨_, h⟩)
        · cases h
        · cases h
        · cases h
        · have h : custom e (st.log ++ [.called .policy e]) = _ := h
          rw [hend] at h; cases h
      · rintro (⟨h, _, _⟩ | ⟨_, h⟩)
        · cases h
        · have h : custom e (st.log ++ [.called .policy e]) = _ := h
          rw [hend] at h; cases h
      · simp [currentHandler, handlerCalls]
      · simp [Describes, written]
    | throws k => exact ⟨.thrown (.user k), _, rfl, .custom rfl hend, rfl, rfl, by simp [currentHandler, handlerCalls], by simp [Describes, written]⟩
    | exits => exact ⟨.exited, _, rfl, .custom rfl hend, rfl, rfl, by simp [currentHandler, handlerCalls], by simp [Describes, written]⟩

end OpenMethod
