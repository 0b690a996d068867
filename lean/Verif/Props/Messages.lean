import Verif.Model.Messages
import Verif.SpecMessages
import Verif.Props.Output
import Verif.Props.ErrorHandler

/-!
# C88: the descriptions of errors tell which error happened
-/

namespace OpenMethod.Props

open Output Messages

variable {name : TypeId → List Char} {self : TypeId} {e e' : Err} {s s' : List Char}

theorem split_at {a b r r' : List Char} {c : Char} (ha : c ∉ a) (hb : c ∉ b) (h : a ++ c :: r = b ++ c :: r') : a = b ∧ r = r' := by
  induction a generalizing b with
  | nil =>
    cases b with
    | nil => exact ⟨rfl, by simpa using h⟩
    | cons d b =>
      simp only [List.nil_append, List.cons_append, List.cons.injEq] at h
      exact absurd (h.1 ▸ List.mem_cons_self) hb
  | cons d a ih =>
    cases b with
    | nil =>
      simp only [List.nil_append, List.cons_append, List.cons.injEq] at h
      exact absurd (h.1 ▸ List.mem_cons_self) ha
    | cons d' b =>
      simp only [List.cons_append, List.cons.injEq] at h
      obtain ⟨h1, h2⟩ := ih (fun m => ha (List.mem_cons_of_mem _ m)) (fun m => hb (List.mem_cons_of_mem _ m)) h.2
      exact ⟨by rw [h.1, h1], h2⟩

/-! ## Numerals -/

theorem numeralDigits_inj {a b : Nat} {c : Char} (ha : numeralDigits[a]? = some c) (hb : numeralDigits[b]? = some c) : a = b :=
  (List.getElem?_inj (List.getElem?_eq_some_iff.1 ha).1 (by decide)).1 (ha.trans hb.symm)

theorem numeralValue_unique {base v w : Nat} {cs : List Char} (h : NumeralValue base cs v) (h' : NumeralValue base cs w) : v = w := by
  induction h generalizing w with
  | nil =>
    generalize hc : ([] : List Char) = cs at h'
    cases h' with
    | nil => rfl
    | snoc _ _ _ => simp at hc
  | @snoc cs v c d _ hd _ ih =>
    generalize hc : cs ++ [c] = cs' at h'
    cases h' with
    | nil => simp at hc
    | snoc h1 h2 _ =>
      obtain ⟨rfl, he⟩ := List.append_inj' hc rfl
      obtain rfl : c = _ := by simpa using he
      rw [ih h1, numeralDigits_inj hd h2]

theorem numeralValue_mem {base v : Nat} {cs : List Char} (h : NumeralValue base cs v) : ∀ c ∈ cs, c ∈ numeralDigits := by
  induction h with
  | nil => simp
  | snoc _ hd _ ih =>
    intro c hc
    rcases List.mem_append.1 hc with hc | hc
    · exact ih c hc
    · rw [List.mem_singleton.1 hc]
      exact List.mem_of_getElem? hd

theorem numeral_notMem {base v : Nat} {cs : List Char} (h : Numeral base cs v) {c : Char} (hc : c ∉ numeralDigits) : c ∉ cs :=
  fun hm => hc (numeralValue_mem h.1 c hm)

/-! ## Names -/

theorem AdornedNames.plain (h : AdornedNames name) : PlainNames name := by
  intro t
  obtain ⟨cs, hn, he⟩ := h t
  rw [he]
  have h1 := numeral_notMem hn (c := '|') (by decide)
  have h2 := numeral_notMem hn (c := '=') (by decide)
  have h3 := numeral_notMem hn (c := '\n') (by decide)
  simp [h1, h2, h3]

theorem AdornedNames.injective (h : AdornedNames name) : Function.Injective name := by
  intro t u he
  obtain ⟨cs, hn, h1⟩ := h t
  obtain ⟨ds, hm, h2⟩ := h u
  rw [h1, h2] at he
  simp only [List.append_assoc, List.append_cancel_left_eq] at he
  obtain ⟨rfl, _⟩ := List.append_inj' he rfl
  exact BitVec.eq_of_toNat_eq (numeralValue_unique hn.1 hm.1)

/-- The names that the policy of a registry gives to types. -/
def nameIn : Names → TypeId → List Char
  | .defaults => fun t => "type_id(".toList ++ (digits 16 t.toNat).map digitChar ++ ")".toList
  | .given name => name

theorem nameIn_defaults : AdornedNames (nameIn .defaults) := fun t => ⟨_, digits_numeral (by omega) (by omega) _, rfl⟩

theorem toChars_ok {base : Nat} (h2 : 2 ≤ base) (h : 2 ^ 64 ≤ base ^ 20) (v : BitVec 64) : toChars 20 base v.toNat = .ok ((digits base v.toNat).map digitChar) := by
  refine if_pos ?_
  rw [List.length_map]
  exact digits_length h2 19 _ (lt_of_lt_of_le v.isLt h)

theorem putAddress_some (s : List Char) (v : BitVec 64) : putAddress (some s) v = .ok (some (s ++ (digits 16 v.toNat).map digitChar)) := by
  have h := toChars_ok (base := 16) (by omega) (by norm_num) v
  simp only [putAddress, h, Res.ok_bind, puts, Option.map_some]

theorem putSize_some (s : List Char) (v : BitVec 64) : putSize (some s) v = .ok (some (s ++ (digits 10 v.toNat).map digitChar)) := by
  have h := toChars_ok (base := 10) (by omega) (by norm_num) v
  simp only [putSize, h, Res.ok_bind, puts, Option.map_some]

theorem typeName_light (N : Names) (t : TypeId) (s : List Char) : typeName light N t (some s) = .ok (some (s ++ nameIn N t)) := by
  cases N with
  | defaults =>
    simp only [typeName]
    rw [show light.address = putAddress from rfl, show ∀ x cs, light.text (some x) cs = some (x ++ cs) from fun _ _ => rfl, putAddress_some, Res.ok_bind]
    show Res.ok (some _) = Res.ok (some (s ++ (_ ++ _ ++ _)))
    simp only [List.append_assoc]
  | given name => rfl

/-! ## Descriptions -/

/-- C88, the text: what the library writes about an error. Nothing is undefined. -/
theorem C88_text (N : Names) (self : TypeId) (s : List Char) (he : e.InRange) :
    ∃ d, write light N self (some s) e = .ok (some (s ++ d)) ∧ Description (nameIn N) self e d := by
  have num : ∀ n < 2 ^ 64, Numeral 10 ((digits 10 (BitVec.ofNat 64 n).toNat).map digitChar) n := by
    intro n hn
    rw [BitVec.toNat_ofNat, Nat.mod_eq_of_lt hn]
    exact digits_numeral (by omega) (by omega) n
  cases e with
  | missingClass t =>
    refine ⟨_, ?_, .missingClass t⟩
    simp only [write]
    rw [show light.text (some s) "unknown class ".toList = some (s ++ "unknown class ".toList) from rfl, typeName_light, List.append_assoc]
  | missingBase b d =>
    refine ⟨_, ?_, .missingBase b d⟩
    simp only [write]
    rw [show light.text (some s) "missing base ".toList = some (s ++ "missing base ".toList) from rfl, typeName_light, Res.ok_bind]
    rw [show ∀ x, light.text (some x) " -<| ".toList = some (x ++ " -<| ".toList) from fun _ => rfl, typeName_light]
    simp only [List.append_assoc]
  | notInitialized => exact ⟨_, rfl, .notInitialized⟩
  | searchError a b =>
    refine ⟨_, ?_, .searchError (num a (he a (by simp [Err.numbers]))) (num b (he b (by simp [Err.numbers])))⟩
    simp only [write]
    rw [show light.number = putSize from rfl, show ∀ x cs, light.text (some x) cs = some (x ++ cs) from fun _ _ => rfl, putSize_some, Res.ok_bind,
      show ∀ x cs, light.text (some x) cs = some (x ++ cs) from fun _ _ => rfl, putSize_some, Res.ok_bind, show ∀ x cs, light.text (some x) cs = some (x ++ cs) from fun _ _ => rfl]
    simp only [List.append_assoc]
  | noOverrider n ts => exact ⟨_, rfl, .noOverrider n ts⟩
  | ambiguousCall n ts => exact ⟨_, rfl, .ambiguousCall n ts⟩
  | finalError st d =>
    refine ⟨_, ?_, .finalError st d⟩
    simp only [write]
    rw [show ∀ x cs, light.text (some x) cs = some (x ++ cs) from fun _ _ => rfl, typeName_light, Res.ok_bind,
      show ∀ x cs, light.text (some x) cs = some (x ++ cs) from fun _ _ => rfl, typeName_light]
    simp only [List.append_assoc]
  | odrViolation =>
    refine ⟨_, ?_, .odrViolation⟩
    simp only [write]
    rw [show ∀ x cs, light.text (some x) cs = some (x ++ cs) from fun _ _ => rfl, typeName_light, List.append_assoc]

/-- Texts for errors of the same kind only are equal, also if more text follows on other lines. -/
theorem description_line {r r' : List Char} (hp : PlainNames name) (h : Description name self e s) (h' : Description name self e' s') (he : s ++ '\n' :: r = s' ++ '\n' :: r') :
    SameNews name e e' ∧ r = r' := by
  have nl : ∀ {cs : List Char} {n : Nat}, Numeral 10 cs n → '\n' ∉ cs := fun h => numeral_notMem h (by decide)
  have ns : ∀ {cs : List Char} {n : Nat}, Numeral 10 cs n → 's' ∉ cs := fun h => numeral_notMem h (by decide)
  have nb : ∀ {cs : List Char} {n : Nat}, Numeral 10 cs n → ' ' ∉ cs := fun h => numeral_notMem h (by decide)
  cases h with
  | missingClass t =>
    cases h' with
    | missingClass u =>
      simp only [List.append_assoc, List.append_cancel_left_eq] at he
      obtain ⟨h1, h2⟩ := split_at (hp t).2.2 (hp u).2.2 he
      exact ⟨⟨rfl, by simp [Err.culprits, h1], rfl⟩, h2⟩
    | _ => simp at he
  | missingBase b d =>
    cases h' with
    | missingBase b' d' =>
      simp only [List.append_assoc, List.append_cancel_left_eq] at he
      rw [show " -<| ".toList = " -<".toList ++ '|' :: " ".toList by simp] at he
      simp only [List.append_assoc, List.cons_append] at he
      rw [← List.append_assoc, ← List.append_assoc (name b')] at he
      obtain ⟨h1, h2⟩ := split_at (by simp [(hp b).1]) (by simp [(hp b').1]) he
      have h1 := List.append_cancel_right h1
      have h2 := List.append_cancel_left h2
      obtain ⟨h3, h4⟩ := split_at (hp d).2.2 (hp d').2.2 h2
      exact ⟨⟨rfl, by simp [Err.culprits, h1, h3], rfl⟩, h4⟩
    | _ => simp at he
  | notInitialized =>
    cases h' with
    | notInitialized => exact ⟨⟨rfl, rfl, rfl⟩, by simpa using he⟩
    | _ => simp at he
  | @searchError a b ca cb ha hb =>
    cases h' with
    | @searchError a' b' ca' cb' ha' hb' =>
      simp only [List.append_assoc, List.append_cancel_left_eq] at he
      rw [show "s using ".toList = 's' :: " using ".toList by simp, show " buckets\n".toList = ' ' :: "buckets\n".toList by simp] at he
      simp only [List.cons_append] at he
      obtain ⟨rfl, h2⟩ := split_at (ns ha) (ns ha') he
      have h2 := List.append_cancel_left h2
      obtain ⟨rfl, h4⟩ := split_at (nb hb) (nb hb') h2
      obtain rfl := numeralValue_unique ha.1 ha'.1
      obtain rfl := numeralValue_unique hb.1 hb'.1
      exact ⟨⟨rfl, rfl, rfl⟩, by simpa using h4⟩
    | _ => simp at he
  | noOverrider n ts =>
    cases h' with
    | noOverrider _ _ => exact ⟨⟨rfl, rfl, rfl⟩, by simpa using he⟩
    | _ => simp at he
  | ambiguousCall n ts =>
    cases h' with
    | ambiguousCall _ _ => exact ⟨⟨rfl, rfl, rfl⟩, by simpa using he⟩
    | _ => simp at he
  | finalError b d =>
    cases h' with
    | finalError b' d' =>
      simp only [List.append_assoc, List.append_cancel_left_eq] at he
      rw [show ", dynamic type = ".toList = ", dynamic type ".toList ++ '=' :: " ".toList by simp] at he
      simp only [List.append_assoc, List.cons_append] at he
      rw [← List.append_assoc, ← List.append_assoc (name b')] at he
      obtain ⟨h1, h2⟩ := split_at (by simp [(hp b).2.1]) (by simp [(hp b').2.1]) he
      have h1 := List.append_cancel_right h1
      have h2 := List.append_cancel_left h2
      obtain ⟨h3, h4⟩ := split_at (hp d).2.2 (hp d').2.2 h2
      exact ⟨⟨rfl, by simp [Err.culprits, h1, h3], rfl⟩, h4⟩
    | _ => simp at he
  | odrViolation =>
    cases h' with
    | odrViolation => exact ⟨⟨rfl, rfl, rfl⟩, by simpa using he⟩
    | _ => simp at he

/-- C88: if the names of types are plain, then errors with the same description are of the same class, and about classes with the same names. -/
theorem C88_partial (N : Names) (hp : PlainNames (nameIn N)) (self : TypeId) (he : e.InRange) (he' : e'.InRange)
    (h : write light N self (some s) e = write light N self (some s) e') : SameNews (nameIn N) e e' := by
  obtain ⟨d, h1, h2⟩ := C88_text N self s he
  obtain ⟨d', h1', h2'⟩ := C88_text N self s he'
  rw [h1, h1'] at h
  have hd : d = d' := by simpa using h
  exact (description_line hp h2 h2' (r := []) (r' := []) (by rw [hd])).1

/-- With the default `type_name`, the classes are the same. -/
theorem C88_default (self : TypeId) (he : e.InRange) (he' : e'.InRange) (h : write light .defaults self (some s) e = write light .defaults self (some s) e') :
    ErrKind.of e = ErrKind.of e' ∧ e.culprits = e'.culprits ∧ e.numbers = e'.numbers := by
  obtain ⟨h1, h2, h3⟩ := C88_partial .defaults (AdornedNames.plain nameIn_defaults) self he he' h
  exact ⟨h1, List.map_injective_iff.2 (AdornedNames.injective nameIn_defaults) h2, h3⟩

theorem report_light (N : Names) (self : TypeId) (s : List Char) (he : e.InRange) :
    ∃ d, report N self (some s) e = .ok (some (s ++ d ++ ['\n'])) ∧ Description (nameIn N) self e d := by
  obtain ⟨d, h1, h2⟩ := C88_text N self s he
  refine ⟨d, ?_, h2⟩
  unfold report
  rw [h1, Res.ok_bind]
  simp [puts]

theorem reports_light (N : Names) (self : TypeId) {es : List Err} (he : ∀ e ∈ es, e.InRange) (s : List Char) :
    ∃ ds, List.Forall₂ (Description (nameIn N) self) es ds ∧ reports N self (some s) es = .ok (some (s ++ (ds.map (· ++ ['\n'])).flatten)) := by
  induction es generalizing s with
  | nil => exact ⟨[], .nil, by simp [reports]⟩
  | cons e es ih =>
    obtain ⟨d, h1, h2⟩ := report_light N self s (he e List.mem_cons_self)
    obtain ⟨ds, h3, h4⟩ := ih (fun e h => he e (List.mem_cons_of_mem _ h)) (s ++ d ++ ['\n'])
    refine ⟨d :: ds, .cons h2 h3, ?_⟩
    unfold reports
    rw [h1, Res.ok_bind, h4]
    simp

theorem lines_inj (hp : PlainNames name) {es es' : List Err} {ds ds' : List (List Char)} (h : List.Forall₂ (Description name self) es ds)
    (h' : List.Forall₂ (Description name self) es' ds') (he : (ds.map (· ++ ['\n'])).flatten = (ds'.map (· ++ ['\n'])).flatten) : List.Forall₂ (SameNews name) es es' := by
  induction h generalizing es' ds' with
  | nil =>
    cases h' with
    | nil => exact .nil
    | cons _ _ => simp at he
  | cons hd _ ih =>
    cases h' with
    | nil => simp at he
    | cons hd' ht' =>
      simp only [List.map_cons, List.flatten_cons, List.append_assoc, List.singleton_append] at he
      obtain ⟨h1, h2⟩ := description_line hp hd hd' he
      exact .cons h1 (ih ht' h2)

/-- C88, several errors: what the default error handler wrote tells how many errors there were, of which classes, in which order, and about which classes. -/
theorem C88_lines (N : Names) (hp : PlainNames (nameIn N)) (self : TypeId) {es es' : List Err} (he : ∀ e ∈ es, e.InRange) (he' : ∀ e ∈ es', e.InRange)
    (h : reports N self (some s) es = reports N self (some s) es') : List.Forall₂ (SameNews (nameIn N)) es es' := by
  obtain ⟨ds, h1, h2⟩ := reports_light N self he s
  obtain ⟨ds', h1', h2'⟩ := reports_light N self he' s
  rw [h2, h2'] at h
  exact lines_inj hp h1 h1' (by simpa using h)

theorem reports_append (N : Names) (self : TypeId) (os : Stream) (es es' : List Err) :
    reports N self os (es ++ es') = (reports N self os es >>= fun os => reports N self os es') := by
  induction es generalizing os with
  | nil => rfl
  | cons e es ih =>
    simp only [List.cons_append, reports]
    cases report N self os e with
    | ok os' => simp only [Res.ok_bind, ih]
    | err _ => rfl
    | ub => rfl

/-- C88, operations: an operation that reports an error appends its description and a line end to the output, if the default error handler is in place; otherwise, nothing. -/
theorem C88_output (N : Names) (self : TypeId) {S : Setup} {cfg : Config} {op : LibOp} {st st' : EffState} {o : Out LibVal} (h : op.run S cfg st = (o, st')) {text : List Char}
    (ht : reports N self (some []) (written st.log) = .ok (some text)) :
    (∀ e, e.InRange → Reports cfg st.reg op e → Describes S st.handler →
      ∃ d, Description (nameIn N) self e d ∧ reports N self (some []) (written st'.log) = .ok (some (text ++ d ++ ['\n']))) ∧
    ((∀ e, Reports cfg st.reg op e → ¬ Describes S st.handler) → reports N self (some []) (written st'.log) = .ok (some text)) := by
  obtain ⟨h1, h2⟩ := C52 h
  constructor
  · intro e he hr hd
    obtain ⟨d, h3, h4⟩ := report_light N self text he
    refine ⟨d, h4, ?_⟩
    rw [h1 e hr, if_pos hd, reports_append, ht, Res.ok_bind]
    simp only [reports, h3, Res.ok_bind]
  · intro hn
    by_cases hr : ∃ e, Reports cfg st.reg op e
    · obtain ⟨e, hr⟩ := hr
      rw [h1 e hr, if_neg (hn e hr), List.append_nil, ht]
    · rw [h2 fun e he => hr ⟨e, he⟩, ht]

/-- Nothing is written to a stream that is off. -/
theorem C88_off (N : Names) (self : TypeId) (e : Err) : report N self none e = .ok none := by
  cases N <;> cases e <;> rfl

/-- The exceptions of `throw_error_handler` have the same descriptions, except that the representation of addresses is that of the standard library. -/
theorem C88_what (address : BitVec 64 → List Char) (N : Names) (self : TypeId) (he : e.InRange) :
    ∃ d name, what address N self e = .ok d ∧ Description name self e d ∧
      (∀ n, N = .given n → name = n) ∧ (N = .defaults → ∀ t, name t = "type_id(".toList ++ address t ++ ")".toList) := by
  have num : ∀ n < 2 ^ 64, Numeral 10 ((digits 10 (BitVec.ofNat 64 n).toNat).map digitChar) n := by
    intro n hn
    rw [BitVec.toNat_ofNat, Nat.mod_eq_of_lt hn]
    exact digits_numeral (by omega) (by omega) n
  have key : ∃ name : TypeId → List Char, (∀ t x, typeName (strings address) N t x = .ok (x ++ name t)) ∧
      (∀ n, N = .given n → name = n) ∧ (N = .defaults → ∀ t, name t = "type_id(".toList ++ address t ++ ")".toList) := by
    cases N with
    | defaults =>
      refine ⟨fun t => "type_id(".toList ++ address t ++ ")".toList, fun t x => ?_, fun n h => by simp at h, fun _ _ => rfl⟩
      simp [typeName, strings]
    | given n =>
      refine ⟨n, fun t x => rfl, fun n' h => by simpa using h, fun h => by simp at h⟩
  obtain ⟨name, hn, h1, h2⟩ := key
  have tx : ∀ x cs, (strings address).text x cs = x ++ cs := fun _ _ => rfl
  unfold what
  suffices ∃ d, write (strings address) N self [] e = .ok d ∧ Description name self e d by
    obtain ⟨d, h3, h4⟩ := this
    exact ⟨d, name, h3, h4, h1, h2⟩
  cases e with
  | missingClass t => exact ⟨_, by simp only [write, hn, tx, List.nil_append], .missingClass t⟩
  | missingBase b d => exact ⟨_, by simp only [write, hn, tx, List.nil_append, Res.ok_bind], .missingBase b d⟩
  | notInitialized => exact ⟨_, by simp only [write, tx, List.nil_append], .notInitialized⟩
  | searchError a b =>
    refine ⟨_, ?_, .searchError (num a (he a (by simp [Err.numbers]))) (num b (he b (by simp [Err.numbers])))⟩
    simp only [write, tx, List.nil_append]
    rfl
  | noOverrider n ts => exact ⟨_, by simp only [write, tx, List.nil_append], .noOverrider n ts⟩
  | ambiguousCall n ts => exact ⟨_, by simp only [write, tx, List.nil_append], .ambiguousCall n ts⟩
  | finalError b d => exact ⟨_, by simp only [write, hn, tx, List.nil_append, Res.ok_bind], .finalError b d⟩
  | odrViolation => exact ⟨_, by simp only [write, hn, tx, List.nil_append], .odrViolation⟩

/-- C88 does not hold in full: the descriptions of bad calls do not say which method was called, nor with which arguments. -/
theorem C88_refuted (N : Names) (self : TypeId) (s : List Char) : ∃ e e' : Err, e.InRange ∧ e'.InRange ∧ e ≠ e' ∧ write light N self (some s) e = write light N self (some s) e' :=
  ⟨.noOverrider 1 [1], .noOverrider 2 [3, 4], by simp [Err.InRange, Err.numbers], by simp [Err.InRange, Err.numbers], by simp, rfl⟩

/-- Descriptions take one line, except that of a failed search for hash factors, which is followed by an empty line. -/
theorem C88_newline (hp : PlainNames name) (h : Description name self e s) : '\n' ∈ s ↔ ErrKind.of e = .searchError := by
  cases h with
  | missingClass t => simp [ErrKind.of, (hp t).2.2]
  | missingBase b d => simp [ErrKind.of, (hp b).2.2, (hp d).2.2]
  | notInitialized => simp [ErrKind.of]
  | searchError _ _ => simp [ErrKind.of]
  | noOverrider _ _ => simp [ErrKind.of]
  | ambiguousCall _ _ => simp [ErrKind.of]
  | finalError b d => simp [ErrKind.of, (hp b).2.2, (hp d).2.2]
  | odrViolation => simp [ErrKind.of, (hp self).2.2]

/-! ## Examples -/

/-- Type ids are written in hexadecimal, without a prefix: `type_id(10)` is not the class of id 10. -/
example : report .defaults 0 (some []) (.missingBase 16 10) = .ok (some "missing base type_id(10) -<| type_id(a)\n".toList) := by
  simp [report, write, typeName, light, putAddress, toChars, digits, digitChar, puts]

example : reports (.given fun t => if t = 1 then "Animal".toList else "Dog".toList) 0 (some []) [.noOverrider 1 [2], .missingClass 2, .searchError 300000 64] =
    .ok (some "not implemented\nunknown class Dog\ncould not find hash factors after 300000s using 64 buckets\n\n".toList) := by
  simp [reports, report, write, typeName, light, putSize, toChars, digits, digitChar, puts]

example : PlainNames fun t => if t = 1 then "Animal".toList else "std::vector<Dog>".toList := by
  intro t
  dsimp only
  split <;> simp

/-- Names must be plain: these are different, as is each pair of classes, but the texts are the same. -/
example : ∃ name : TypeId → List Char, (name 1 ≠ name 3 ∧ name 2 ≠ name 4) ∧
    write light (.given name) 0 (some []) (.missingBase 1 2) = write light (.given name) 0 (some []) (.missingBase 3 4) :=
  ⟨fun t => if t = 1 then "A".toList else if t = 2 then "B -<| C".toList else if t = 3 then "A -<| B".toList else "C".toList, by simp, by
    simp [write, typeName, light, puts]⟩

end OpenMethod.Props
