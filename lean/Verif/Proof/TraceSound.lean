import Verif.Proof.TraceInit

/-!
# Lemmas about tracing: what is written
-/

namespace OpenMethod

open T Spec

namespace T

variable {α β : Type} {o : Option Bool} {l : Nat} {G : Tok → Prop}

theorem out_bind (x : T α) (f : α → T β) : (x >>= f).out o l = x.out o l ++ (match x.res o l with | .ok a => (f a).out o l | _ => []) := by
  show (T.bind x f o l).1 = _
  unfold T.bind out res
  rcases x o l with ⟨w, a | e | _⟩ <;> simp

theorem out_bind_ok {x : T α} {a : α} (h : x.res o l = .ok a) (f : α → T β) : (x >>= f).out o l = x.out o l ++ (f a).out o l := by
  rw [out_bind, h]

@[simp] theorem out_pure (a : α) : (pure a : T α).out o l = [] := rfl
@[simp] theorem out_lift (r : Res α) : (lift r).out o l = [] := rfl
@[simp] theorem out_say (ts : List Tok) : (say ts).out o l = if o = some true then ts else [] := rfl
@[simp] theorem out_start : start.out o l = if o = some true then [.indent l] else [] := rfl
@[simp] theorem out_line (ts : List Tok) : (line ts).out o l = if o = some true then .indent l :: ts else [] := by
  unfold line
  rw [out_bind_ok rfl, out_start, out_say]
  split <;> simp
@[simp] theorem out_indented (x : T α) : (indented x).out o l = x.out o (l + 2) := rfl

/-- The trace is on, and what is written satisfies `G`. -/
def Snd (G : Tok → Prop) (o : Option Bool) (l : Nat) (x : T α) : Prop := ∀ t ∈ x.out o l, o = some true ∧ G t

theorem Snd.bind {x : T α} {f : α → T β} (hx : Snd G o l x) (hf : ∀ a, x.res o l = .ok a → Snd G o l (f a)) : Snd G o l (x >>= f) := by
  intro t ht
  rw [out_bind] at ht
  rcases List.mem_append.1 ht with ht | ht
  · exact hx t ht
  · cases h : x.res o l with
    | ok a => rw [h] at ht; exact hf a h t ht
    | err e => rw [h] at ht; simp at ht
    | ub => rw [h] at ht; simp at ht

theorem Snd.pure (a : α) : Snd G o l (Pure.pure a : T α) := by simp [Snd]
theorem Snd.lift (r : Res α) : Snd G o l (T.lift r) := by simp [Snd]

theorem Snd.lift_bind {r : Res α} {f : α → T β} (hf : ∀ a, r = .ok a → Snd G o l (f a)) : Snd G o l (T.lift r >>= f) :=
  Snd.bind (.lift r) fun a h => hf a h

theorem Snd.say {ts : List Tok} (h : ∀ t ∈ ts, G t) : Snd G o l (T.say ts) := by
  intro t ht
  rw [out_say] at ht
  split at ht
  · exact ⟨by assumption, h t ht⟩
  · simp at ht

theorem Snd.start (h : ∀ k, G (.indent k)) : Snd G o l T.start := by
  intro t ht
  rw [out_start] at ht
  split at ht
  · obtain rfl := List.mem_singleton.1 ht
    exact ⟨by assumption, h l⟩
  · simp at ht

theorem Snd.line {ts : List Tok} (hi : ∀ k, G (.indent k)) (h : ∀ t ∈ ts, G t) : Snd G o l (T.line ts) := .bind (.start hi) fun _ _ => .say h

theorem Snd.ifTrace {x : T Unit} (h : Snd G o l x) : Snd G o l (T.ifTrace x) := by
  intro t ht
  unfold T.ifTrace out at ht
  dsimp only at ht
  split at ht
  · exact h t ht
  · simp at ht

theorem Snd.indented {x : T α} (h : Snd G o (l + 2) x) : Snd G o l (T.indented x) := h

theorem Snd.each {f : α → T Unit} {as : List α} (h : ∀ a ∈ as, Snd G o l (f a)) : Snd G o l (T.each f as) := by
  induction as with
  | nil => exact .pure ()
  | cons a as ih => exact .bind (h a (by simp)) fun _ _ => ih fun a ha => h a (by simp [ha])

theorem Snd.fold {f : β → α → T β} {as : List α} (h : ∀ a ∈ as, ∀ b, Snd G o l (f b a)) (b : β) : Snd G o l (T.fold f b as) := by
  induction as generalizing b with
  | nil => exact .pure b
  | cons a as ih => exact .bind (h a (by simp) b) fun b _ => ih (fun a ha => h a (by simp [ha])) b

theorem Snd.ite {c : Prop} [Decidable c] {x y : T α} (hx : c → Snd G o l x) (hy : ¬ c → Snd G o l y) : Snd G o l (if c then x else y) := by
  split
  · exact hx ‹_›
  · exact hy ‹_›

end T

/-- Tokens other than names are accepted. -/
structure Plain (G : Tok → Prop) : Prop where
  indent : ∀ k, G (.indent k)
  str : ∀ s, G (.str s)
  num : ∀ n, G (.num n)
  padded : ∀ w n, G (.padded w n)
  bits : ∀ b, G (.bits b)
  addr : G .addr

/-- `Snd` for straight-line code: `h` proves that names are accepted. -/
macro "snd" P:term:max "[" h:Lean.Parser.Tactic.simpLemma,* "]" : tactic => `(tactic|
  repeat' with_reducible first
    | exact T.Snd.pure _
    | exact T.Snd.lift _
    | exact T.Snd.start ($P).indent
    | (refine T.Snd.say ?_; simp [($P).str, ($P).num, ($P).padded, ($P).bits, ($P).addr, $h,*]; done)
    | (refine T.Snd.line ($P).indent ?_; simp [($P).str, ($P).num, ($P).padded, ($P).bits, ($P).addr, $h,*]; done)
    | refine T.Snd.lift_bind fun _ _ => ?_
    | refine T.Snd.bind ?_ fun _ _ => ?_
    | refine T.Snd.ifTrace ?_
    | refine T.Snd.indented ?_
    | refine T.Snd.each fun _ _ => ?_
    | refine T.Snd.fold (fun _ _ _ => ?_) _
    | refine T.Snd.ite (fun _ => ?_) (fun _ => ?_)
    | dsimp only)

variable {o : Option Bool} {l : Nat} {G : Tok → Prop}

/-- Names of classes are accepted. -/
def ClassNames (G : Tok → Prop) (L : Lattice) : Prop := ∀ c t, (L.typeIds c)[0]? = some t → G (.type t)

/-- Names of methods and overriders are accepted. -/
def MethodNames (G : Tok → Prop) (ms : List Meth) : Prop := ∀ m ∈ ms, G (.method m.info.id) ∧ ∀ ov ∈ m.overriders, G (.overrider ov.info.pf)

theorem ofOption_ok {α : Type} {x : Option α} {a : α} (h : Res.ofOption x = .ok a) : x = some a := by
  cases x with
  | none => simp at h
  | some b => simpa using h

theorem snd_sepBy (P : Plain G) {α : Type} {write : α → T Unit} {as : List α} (h : ∀ a ∈ as, Snd G o l (write a)) : Snd G o l (sepBy write as) := by
  unfold sepBy
  snd P []
  apply h
  assumption

theorem snd_sayTypes (P : Plain G) {ts : List TypeId} (h : ∀ t ∈ ts, G (.type t)) : Snd G o l (sayTypes ts) :=
  snd_sepBy P fun t ht => .say (by simpa using h t ht)

theorem snd_sayClass {L : Lattice} (hL : ClassNames G L) (c : Cls) : Snd G o l (sayClass L c) := by
  unfold sayClass
  refine .ifTrace (.lift_bind fun t ht => .say ?_)
  simpa using hL c t (ofOption_ok ht)

theorem snd_classLine (P : Plain G) {L : Lattice} (hL : ClassNames G L) (c : Cls) : Snd G o l (classLine L c) := by
  unfold classLine
  snd P []
  exact snd_sayClass hL c

theorem snd_augmentClassesT (P : Plain G) {pl : Platform} {r : Rtti} {classes : List ClassInfo} (hc : ∀ cr ∈ classes, G (.type cr.type) ∧ ∀ t ∈ cr.bases, G (.type t))
    (hL : ∀ L, augmentClasses pl r classes = .ok L → ClassNames G L) : Snd G o l (augmentClassesT pl r classes) := by
  unfold augmentClassesT
  refine .bind (by snd P []) fun _ _ => .bind ?_ fun _ _ => .lift_bind fun L h => ?_
  · refine .each fun cr hcr => ?_
    refine .indented (.bind (.line P.indent ?_) fun _ _ => .bind (snd_sayTypes P (hc cr hcr).2) fun _ _ => ?_)
    · simp [P.str, (hc cr hcr).1]
    · snd P []
  · have hN := hL L h
    snd P [] <;> first | exact snd_sayClass hN _ | exact snd_sepBy P fun _ _ => snd_sayClass hN _

theorem snd_findClassesT (P : Plain G) {r : Rtti} {L : Lattice} {unknown : TypeId → T Unit} {ts : List TypeId} (h : ∀ t ∈ ts, Snd G o l (unknown t)) :
    Snd G o l (findClassesT r L unknown ts) := by
  induction ts with
  | nil => exact .pure _
  | cons t ts ih =>
    unfold findClassesT
    snd (P) []
    · exact h t (by simp)
    all_goals exact ih fun t ht => h t (by simp [ht])

theorem snd_augmentOverridersT (P : Plain G) (r : Rtti) (L : Lattice) (mret : Option Cls) {os : List OverriderInfo} (h : ∀ ov ∈ os, G (.overrider ov.pf)) :
    Snd G o l (augmentOverridersT r L mret os) := by
  induction os with
  | nil => exact .pure _
  | cons ov os ih =>
    unfold augmentOverridersT
    refine .bind ?_ fun _ _ => .bind (ih fun ov hov => h ov (by simp [hov])) fun _ _ => .pure _
    unfold augmentOverriderT
    refine .bind (.line P.indent (by simp [P.str, P.addr, h ov (by simp)])) fun _ _ => .bind ?_ fun _ _ => ?_
    · refine snd_findClassesT P fun t _ => ?_
      unfold unknownOverriderParam
      snd P []
    · cases mret with
      | none => exact .pure _
      | some c => exact .lift_bind fun _ _ => .pure _

theorem snd_augmentT (P : Plain G) (r : Rtti) (L : Lattice) {ms : List MethodInfo}
    (h : ∀ m ∈ ms, G (.method m.id) ∧ (∀ t ∈ m.vp, G (.type t)) ∧ ∀ ov ∈ m.overriders, G (.overrider ov.pf)) : Snd G o l (augmentT r L ms) := by
  unfold augmentT
  refine .bind (by snd P []) fun _ _ => .indented (.bind ?_ fun _ _ => .lift_bind fun _ _ => .pure _)
  generalize l + 2 = l
  induction ms with
  | nil => exact .pure _
  | cons m ms ih =>
    unfold augmentMethodsT
    refine .bind ?_ fun _ _ => .bind (ih fun m hm => h m (by simp [hm])) fun _ _ => .pure _
    obtain ⟨h1, h2, h3⟩ := h m (by simp)
    unfold augmentMethodT
    refine .bind (.line P.indent (by simp [P.str, h1])) fun _ _ => .bind (snd_sayTypes P h2) fun _ _ => .bind (by snd P []) fun _ _ => .indented ?_
    refine .bind (snd_findClassesT P fun t ht => ?_) fun _ _ => .bind (snd_augmentOverridersT P _ _ _ h3) fun _ _ => .pure _
    exact .line P.indent (by simp [P.str, P.num, P.addr, h2 t ht])

/-! ## Slots -/

theorem snd_sayParam (P : Plain G) {L : Lattice} (hL : ClassNames G L) {ms : List Meth} (hM : MethodNames G ms) (c : Cls) (mp : Nat × Nat) : Snd G o l (sayParam L ms c mp) := by
  unfold sayParam
  refine .bind (by snd P []) fun _ _ => .bind (snd_sayClass hL c) fun _ _ => .lift_bind fun m hm => .say ?_
  simp [P.str, P.num, (hM m (List.mem_of_getElem? (ofOption_ok hm))).1]

theorem snd_assignTreeT (P : Plain G) {L : Lattice} (hL : ClassNames G L) {ms : List Meth} (hM : MethodNames G ms) (fuel : Nat) (s : SlotState) (c : Cls) (base : Nat) :
    Snd G o l (assignTreeT L ms fuel s c base) := by
  induction fuel generalizing s c base with
  | zero => exact .pure _
  | succ fuel ih =>
    unfold assignTreeT
    refine .bind ?_ fun _ _ => .fold (fun d _ s => ih s d _) _
    generalize usedByVp ms c = mps
    generalize s.slots = slots
    induction mps generalizing slots base with
    | nil => exact .pure _
    | cons mp mps ih' => exact .bind (snd_sayParam P hL hM c mp) fun _ _ => .bind (by snd P []) fun _ _ => ih' _ _

theorem snd_reserveInT (P : Plain G) {L : Lattice} (hL : ClassNames G L) (from_ : Bits) (reserved : Cls → Bits) (bases : List Cls) :
    Snd G o l (reserveInT L from_ reserved bases) := by
  unfold reserveInT
  snd P []
  exact snd_classLine P hL _

theorem snd_assignLatticeT (P : Plain G) {pl : Platform} {L : Lattice} (hL : ClassNames G L) {ms : List Meth} (hM : MethodNames G ms) (fuel : Nat) (s : SlotState) (c : Cls) :
    Snd G o l (assignLatticeT pl L ms fuel s c) := by
  induction fuel generalizing s c with
  | zero => exact .pure _
  | succ fuel ih =>
    unfold assignLatticeT
    refine .ite (fun _ => .pure _) fun _ => .bind (.fold (fun mp _ s => ?_) _) fun _ _ => .fold (fun d _ s => ih s d) _
    unfold assignParamT
    refine .bind (snd_sayParam P hL hM c mp) fun _ _ => ?_
    snd P []
    · exact snd_reserveInT P hL _ _ _
    · unfold assignCovariantT
      snd P []
      · exact snd_classLine P hL _
      · exact snd_reserveInT P hL _ _ _

theorem snd_assignSlotsT (P : Plain G) {pl : Platform} {L : Lattice} (hL : ClassNames G L) {ms : List Meth} (hM : MethodNames G ms) : Snd G o l (assignSlotsT pl L ms) := by
  unfold assignSlotsT
  refine .bind (by snd P []) fun _ _ => .bind (.indented (.fold (fun c _ s => ?_) _)) fun _ _ => .bind (by snd P []) fun _ _ => .indented (.fold (fun c _ s => ?_) _)
  · unfold assignRootT
    exact .ite (fun _ => .ite (fun _ => snd_assignLatticeT P hL hM _ _ _) fun _ => .indented (snd_assignTreeT P hL hM _ _ _ _)) fun _ => .pure _
  · unfold sizeVtblT
    snd P []
    exact snd_sayClass hL c

/-! ## Dispatch tables -/

theorem overriderTok_mem {m : Meth} {i : Nat} {t : Tok} (h : overriderTok m i = .ok t) : ∃ ov ∈ m.overriders, t = .overrider ov.info.pf := by
  unfold overriderTok at h
  obtain ⟨ov, h1, h2⟩ := Res.bind_eq_ok.1 h
  exact ⟨ov, List.mem_of_getElem? (ofOption_ok h1), (Res.ok.inj h2).symm⟩

theorem snd_overriderTok {m : Meth} (hM : ∀ ov ∈ m.overriders, G (.overrider ov.info.pf)) {i : Nat} {t : Tok} (h : overriderTok m i = .ok t) : G t := by
  obtain ⟨ov, h1, rfl⟩ := overriderTok_mem h
  exact hM ov h1

theorem snd_traceCandidates (P : Plain G) {m : Meth} (hM : ∀ ov ∈ m.overriders, G (.overrider ov.info.pf)) (cs : List (Option Nat)) : Snd G o l (traceCandidates m cs) := by
  unfold traceCandidates
  refine .indented (.each fun c _ => ?_)
  cases c with
  | none => exact .pure _
  | some i => exact .lift_bind fun t ht => .line P.indent (by simp [P.str, P.num, snd_overriderTok hM ht])

theorem snd_traceChoice (P : Plain G) {m : Meth} (hM : ∀ ov ∈ m.overriders, G (.overrider ov.info.pf)) (i : Nat) (b : Bool) : Snd G o l (traceChoice m i b) := by
  unfold traceChoice
  refine .bind (.start P.indent) fun _ _ => .lift_bind fun t ht => .bind (.say (by simp [P.str, P.num, P.addr, snd_overriderTok hM ht])) fun _ _ => ?_
  snd P []

theorem snd_evalCellT (P : Plain G) (n : Bool) (L : Lattice) {m : Meth} (hM : ∀ ov ∈ m.overriders, G (.overrider ov.info.pf)) (mask : Mask) : Snd G o l (evalCellT n L m mask) := by
  unfold evalCellT
  snd P []
  · exact snd_traceCandidates P hM _
  · exact snd_traceChoice P hM _ _
  · unfold nextOfT
    snd P []
    · exact snd_traceCandidates P hM _
    · exact snd_traceChoice P hM _ _

theorem snd_traceGroup (P : Plain G) {L : Lattice} (hL : ClassNames G L) (dim index : Nat) (mask : Mask) (classes : List Cls) : Snd G o l (traceGroup L dim index mask classes) := by
  unfold traceGroup
  refine .ifTrace (.bind (by snd P []) fun _ _ => .indented (.each fun c _ => .bind (.start P.indent) fun _ _ => .lift_bind fun t ht => .say ?_))
  simp [P.str, hL c t (ofOption_ok ht)]

theorem snd_buildTableT (P : Plain G) (n : Bool) {L : Lattice} (hL : ClassNames G L) {m : Meth} (hM : ∀ ov ∈ m.overriders, G (.overrider ov.info.pf)) (gss : List (List Group))
    (cand : Mask) : Snd G o l (buildTableT n L m gss cand) := by
  induction gss generalizing cand l with
  | nil => exact .pure _
  | cons groups rest ih =>
    unfold buildTableT
    refine .indented (.bind (.fold (fun g _ r => .bind (snd_traceGroup P hL _ _ _ _) fun _ _ => ?_) _) fun _ _ => .pure _)
    cases rest with
    | nil => exact .bind (snd_evalCellT P n L hM _) fun _ _ => .pure _
    | cons g' rest => exact .bind (ih _) fun _ _ => .pure _

theorem snd_printT (P : Plain G) (a b c : Nat) : Snd G o l (printT a b c) := by
  unfold printT
  snd P []

theorem snd_buildMethodT (P : Plain G) {pl : Platform} (n : Bool) {L : Lattice} (hL : ClassNames G L) (s : SlotState) (vtbl : Cls → List Entry) {mi : Meth × Nat}
    (hm : G (.method mi.1.info.id)) (hM : ∀ ov ∈ mi.1.overriders, G (.overrider ov.info.pf)) : Snd G o l (buildMethodT pl n L s vtbl mi) := by
  unfold buildMethodT
  dsimp only
  refine .bind (.line P.indent (by simp [P.str, hm])) fun _ _ => .indented (.bind (.each fun vk _ => ?_) fun _ _ => .bind ?_ fun _ _ => .bind (.fold (fun gk _ vtbl => ?_) _) fun _ _ =>
    .bind (by snd P []) fun _ _ => .bind (snd_buildTableT P n hL hM _ _) fun _ _ => ?_)
  · unfold traceGroups
    refine .bind (by snd P []) fun _ _ => .bind (snd_sayClass hL _) fun _ _ => .bind (by snd P []) fun _ _ => .indented (.each fun c _ => ?_)
    refine .bind (by snd P []) fun _ _ => .bind (snd_sayClass hL _) fun _ _ => .bind (by snd P []) fun _ _ => .indented (.bind (.each fun ob hob => ?_) fun _ _ => by snd P [])
    refine .ite (fun _ => .line P.indent ?_) fun _ => .pure _
    simp [P.str, hM ob.1 (List.of_mem_zip hob).1]
  · unfold traceStrides
    snd P []
  · unfold entriesT
    snd P []
    unfold entryT
    refine .bind (.indented (.bind (.start P.indent) fun _ _ => .lift_bind fun t ht => .say ?_)) fun _ _ => .lift _
    simp [P.str, hL _ t (ofOption_ok ht)]
  · have h1 : Snd G o (l + 2) (traceRank L (methGroups pl L mi.1)) := by
      unfold traceRank
      snd P []
    have h2 : ∀ a b c, Snd G o (l + 2) (printT a b c) := fun a b c => snd_printT P a b c
    by_cases hn : mi.1.vp.length > 1
    · simp only [hn, if_true]
      exact .bind h1 fun _ _ => .bind (h2 _ _ _) fun _ _ => .pure _
    · simp only [hn, if_false]
      exact .bind (h2 _ _ _) fun _ _ => .pure _

theorem snd_buildMethodsT (P : Plain G) {pl : Platform} (n : Bool) {L : Lattice} (hL : ClassNames G L) (s : SlotState) (vtbl : Cls → List Entry) {ms : List (Meth × Nat)}
    (hM : ∀ mi ∈ ms, G (.method mi.1.info.id) ∧ ∀ ov ∈ mi.1.overriders, G (.overrider ov.info.pf)) : Snd G o l (buildMethodsT pl n L s vtbl ms) := by
  induction ms generalizing vtbl with
  | nil => exact .pure _
  | cons mi ms ih =>
    have h := hM mi (by simp)
    exact .bind (snd_buildMethodT P n hL s vtbl h.1 h.2) fun _ _ => .bind (ih _ fun mi hmi => hM mi (by simp [hmi])) fun _ _ => .pure _

/-! ## Global data -/

theorem snd_specName (P : Plain G) {m : Meth} (hM : ∀ ov ∈ m.overriders, G (.overrider ov.info.pf)) {c : Cell} {t : Tok} (h : specName m c = .ok t) : G t := by
  cases c with
  | ovr i => exact snd_overriderTok hM h
  | notImplemented => obtain rfl := Res.ok.inj h; exact P.str _
  | ambiguous => obtain rfl := Res.ok.inj h; exact P.str _

theorem snd_writeGlobalT (P : Plain G) {c : Compiled} (hL : ClassNames G c.lattice) (hM : MethodNames G c.meths) (gen : Nat) : Snd G o l (writeGlobalT c gen) := by
  have hmt : ∀ mt ∈ c.meths.zip c.tables, mt.1 ∈ c.meths := fun mt hmt => (List.of_mem_zip hmt).1
  unfold writeGlobalT
  refine .bind (by snd P []) fun _ _ => .bind (.fold (fun mt hm s => ?_) _) fun _ _ => .bind (by snd P []) fun _ _ => .bind (.each fun mt hm => ?_) fun _ _ =>
    .bind (by snd P []) fun _ _ => .bind (.fold (fun x _ s => ?_) _) fun _ _ => .bind (by snd P []) fun _ _ => .pure _
  · have hm' : mt.1 ∈ c.meths.zip c.tables := by rw [(List.mem_zipIdx' hm).2]; exact List.getElem_mem _
    obtain ⟨h1, h2⟩ := hM _ (hmt _ hm')
    unfold writeTableT
    refine .ite (fun _ => .pure _) fun _ => .bind (.ifTrace (.bind (.start P.indent) fun _ _ => .lift_bind fun _ _ => .bind (.say ?_) fun _ _ => .indented (.each fun cell _ =>
      .lift_bind fun t ht => .line P.indent ?_))) fun _ _ => .lift_bind fun _ _ => .pure _
    · simp [P.str, P.num, P.padded, h1]
    · simp [P.str, P.num, snd_specName P h2 ht]
  · obtain ⟨h1, h2⟩ := hM _ (hmt _ hm)
    unfold traceNext
    refine .indented (.bind (.line P.indent (by simp [P.str, h1])) fun _ _ => .each fun x hx => ?_)
    have hx' : x.1 ∈ mt.1.overriders := by rw [(List.mem_zipIdx' hx).2]; exact List.getElem_mem _
    cases mt.2.next x.2 with
    | none => snd P []
    | some cell =>
      refine .bind (.start P.indent) fun _ _ => .bind (.say (by simp [P.str, P.num, h2 x.1 hx'])) fun _ _ => .lift_bind fun t ht => .bind (.say ?_) fun _ _ => by snd P []
      simp [P.str, P.num, snd_specName P h2 ht]
  · unfold writeVtblT
    refine .bind (.start P.indent) fun _ _ => .bind (by snd P []) fun _ _ => .bind (snd_sayClass hL x) fun _ _ => .bind (by snd P []) fun _ _ =>
      .bind (.indented (.fold (fun e _ mem => .bind ?_ fun _ _ => .lift _) _)) fun _ _ => .pure _
    unfold entryWordT
    refine .bind (by snd P []) fun _ _ => .lift_bind fun m hm => .lift_bind fun t ht => ?_
    obtain ⟨h1, h2⟩ := hM m (List.mem_of_getElem? (ofOption_ok hm))
    dsimp only
    refine .ite (fun _ => ?_) fun _ => ?_
    · refine .lift_bind fun cell _ => .bind (by snd P []) fun _ _ => .bind (.indented (.bind (.line P.indent (by simp [P.str, h1])) fun _ _ => .bind (.start P.indent) fun _ _ =>
        .lift_bind fun t ht => .say ?_)) fun _ _ => by snd P []
      simpa using snd_specName P h2 ht
    · refine .bind (by snd P []) fun _ _ => .bind (.indented (.line P.indent (by simp [h1]))) fun _ _ => by snd P []

end OpenMethod
