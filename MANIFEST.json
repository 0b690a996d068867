{
 "claims": [
  {
   "property": "C01",
   "status": "partial",
   "theorems": [
    "OpenMethod.Props.C01_partial",
    "OpenMethod.Props.C01_closest_partial",
    "OpenMethod.Props.C01_refuted"
   ],
   "note": "The code violates the full statement (slot conflict when bases are registered late): C01_refuted. C01_partial proves it when the order of registration is safe for the parameters of the called method (ArgsSafe)."
  },
  {
   "property": "C02",
   "status": "partial",
   "theorems": [
    "OpenMethod.Props.C02_partial",
    "OpenMethod.Props.C02_transitive_partial",
    "OpenMethod.Props.C02_settled_partial",
    "OpenMethod.Props.C02_undominated_partial",
    "OpenMethod.Props.C02_exact",
    "OpenMethod.Props.C02_refuted",
    "OpenMethod.Props.C02_refuted_call"
   ],
   "note": "Refuted under multiple inheritance (dominance not transitive). Proved when the choice is settled by direct comparisons (an overrider dominates all others, or two are undominated, or none is applicable); this includes transitive dominance and single inheritance, and is exact if some overrider is undominated and the order of overriders is arbitrary (C02_exact). In any case an undominated overrider is called, or the call is reported as ambiguous (C02_undominated_partial)."
  },
  {
   "property": "C03",
   "status": "partial",
   "theorems": [
    "OpenMethod.Props.C03_partial",
    "OpenMethod.Props.C03_refuted"
   ],
   "note": "Proved for calls with a safe order of registration and contiguous virtual parameters, whatever the inheritance; refuted otherwise."
  },
  {
   "property": "C04",
   "status": "partial",
   "theorems": [
    "OpenMethod.Props.C04_partial",
    "OpenMethod.Props.C04_transitive_partial",
    "OpenMethod.Props.C04_settled_partial",
    "OpenMethod.Props.C04_sound_partial",
    "OpenMethod.Props.C04_refuted",
    "OpenMethod.Props.C04_refuted_cycle"
   ],
   "note": "As C02. Also refuted in the other direction: a call that should be ambiguous runs an overrider (C04_refuted_cycle)."
  },
  {
   "property": "C05",
   "status": "partial",
   "theorems": [
    "OpenMethod.Props.C05_partial",
    "OpenMethod.Props.C05_gap_partial",
    "OpenMethod.Props.C05_ignored_partial",
    "OpenMethod.Props.C05_two_partial",
    "OpenMethod.Props.C05_refuted",
    "OpenMethod.Props.C05_refuted_read",
    "OpenMethod.Props.C05_last",
    "OpenMethod.Props.C05_exact",
    "OpenMethod.Props.C05_corrected"
   ],
   "note": "Refuted when a non-virtual parameter stands between two virtual ones. Proved when they are contiguous. C05_exact: this is exactly the condition. C05_corrected: a correction of resolve_multi_next for which none is needed. If the virtual parameters after a gap are far enough (always the case with two virtual parameters), calls ignore them and do what they should do for fixed classes in their place; otherwise calls can read outside the tables."
  },
  {
   "property": "C06",
   "status": "partial",
   "theorems": [
    "OpenMethod.Props.C06_partial",
    "OpenMethod.Props.C06_errors",
    "OpenMethod.Props.C06_refuted"
   ],
   "note": "Acceptance and errors proved in full (C06_errors). Outcomes of calls: refuted when bases are registered late (slot conflict); proved when both orders are order-safe, any inheritance graph."
  },
  {
   "property": "C07",
   "status": "partial",
   "theorems": [
    "OpenMethod.Props.C07_partial",
    "OpenMethod.Props.C07_transitive_partial",
    "OpenMethod.Props.C07_settled_partial",
    "OpenMethod.Props.C07_refuted"
   ],
   "note": "Refuted under multiple inheritance. Proved for one virtual parameter, under single inheritance, when dominance is transitive among the applicable overriders, and more generally when the choice is settled by direct comparisons."
  },
  {
   "property": "C08",
   "status": "partial",
   "theorems": [
    "OpenMethod.Props.C08_partial",
    "OpenMethod.Props.C08_refuted"
   ],
   "note": "Proved for calls with a safe order of registration, any inheritance."
  },
  {
   "property": "C09",
   "status": "partial",
   "theorems": [
    "OpenMethod.Props.C09_partial",
    "OpenMethod.Props.C09_refuted"
   ],
   "note": "Proved for calls with a safe order of registration, any inheritance."
  },
  {
   "property": "C10",
   "status": "partial",
   "theorems": [
    "OpenMethod.Props.C10_partial",
    "OpenMethod.Props.C10_slots",
    "OpenMethod.Props.C10_refuted"
   ],
   "note": "Refuted when bases are registered late; proved for pairs of classes registered in a safe order, any inheritance graph."
  },
  {
   "property": "C11",
   "status": "partial",
   "theorems": [
    "OpenMethod.Props.C11_partial",
    "OpenMethod.Props.C11_refuted"
   ],
   "note": "Refuted when bases are registered late (a table address is read as a function); proved for calls with a safe order of registration, with or without n2216."
  },
  {
   "property": "C12",
   "status": "proved",
   "theorems": [
    "OpenMethod.Props.C12",
    "OpenMethod.Props.C12_vtbl"
   ],
   "note": "Any platform, with or without n2216. Writing past the buffer or a v-table is undefined behaviour in the model."
  },
  {
   "property": "C13",
   "status": "partial",
   "theorems": [
    "OpenMethod.Props.C13_refuted",
    "OpenMethod.Props.C13_partial",
    "OpenMethod.Props.C13_next_partial",
    "OpenMethod.Props.C13_next_refuted"
   ],
   "note": "Refuted: next is shared by all arguments that select an overrider, and with multiple inheritance these do not agree. C13_partial: proved for the overrider that a call runs if, whenever an overrider is run, the other applicable ones accept its classes (Covered). C13_next_partial: proved for every overrider reached by a call and any number of next, if of any two overriders applicable to the same arguments a less specific one accepts the classes of the more specific one (Nested). Both hold with one virtual parameter and without unrelated bases. Covered is not enough for the latter (C13_next_refuted). Slots do not conflict (C06) and virtual parameters are contiguous (C05)."
  },
  {
   "property": "C14",
   "status": "partial",
   "theorems": [
    "OpenMethod.Props.C14_refuted",
    "OpenMethod.Props.C14_partial"
   ],
   "note": "Refuted with multiple inheritance: next enters an overrider that does not accept the arguments. Proved under the conditions of C13."
  },
  {
   "property": "C15",
   "status": "partial",
   "theorems": [
    "OpenMethod.Props.C15_refuted",
    "OpenMethod.Props.C15_partial"
   ],
   "note": "Refuted with multiple inheritance and three virtual parameters: next can be cyclic. Proved for methods whose overriders are covered (see C13)."
  },
  {
   "property": "C16",
   "status": "proved",
   "theorems": [
    "OpenMethod.Props.C16",
    "OpenMethod.Props.C16_unset"
   ],
   "note": "Any call, with or without option n2216. C16_unset: an overrider that no call enters may keep a null next, for which has_next is true."
  },
  {
   "property": "C17",
   "status": "partial",
   "theorems": [
    "OpenMethod.Props.C17_clean",
    "OpenMethod.Props.C17_notImplemented",
    "OpenMethod.Props.C17_partial",
    "OpenMethod.Props.C17_refuted"
   ],
   "note": "First part proved in full, as is the exact meaning of not_implemented. Converse: refuted when bases are registered late, proved for calls with a safe order of registration."
  },
  {
   "property": "C18",
   "status": "proved",
   "theorems": [
    "OpenMethod.Props.C18"
   ],
   "note": "Any platform, with or without n2216."
  },
  {
   "property": "C19",
   "status": "proved",
   "theorems": [
    "OpenMethod.Props.C19",
    "OpenMethod.Props.C19_sound"
   ],
   "note": "For every valid program, platform and setting of n2216."
  },
  {
   "property": "C20",
   "status": "partial",
   "theorems": [
    "OpenMethod.Props.C20_partial",
    "OpenMethod.Props.C20_accepted",
    "OpenMethod.Props.C20_refuted"
   ],
   "note": "Detection proved in full; the full statement is refuted because the fields base and derived of the error are exchanged."
  },
  {
   "property": "C21",
   "status": "proved",
   "theorems": [
    "OpenMethod.Props.C21",
    "OpenMethod.Props.C21_bases",
    "OpenMethod.Props.C21_allFound",
    "OpenMethod.Props.C21_simple",
    "OpenMethod.Props.C21_bases_refuted"
   ],
   "note": "For the relation on which applicability and specificity are decided. The list of transitive bases, only used to assign slots, is not complete (C21_bases_refuted); C21_bases says what it contains, C21_allFound when it is complete, C21_simple gives simple ways to meet OrderSafe, the hypothesis of other properties: complete lists, single inheritance registered from the most derived class, or virtual parameters of one class only."
  },
  {
   "property": "C22",
   "status": "proved",
   "theorems": [
    "OpenMethod.Props.C22"
   ],
   "note": "All vptr policies, direct or indirect, with or without runtime checks, after any history."
  },
  {
   "property": "C23",
   "status": "proved",
   "theorems": [
    "OpenMethod.Props.C23",
    "OpenMethod.Props.C23_safe"
   ],
   "note": "For any random generator and any previous content, when no id is UINTPTR_MAX (which the code reserves). C23_safe: no undefined behaviour with less than 100 million classes."
  },
  {
   "property": "C24",
   "status": "proved",
   "theorems": [
    "OpenMethod.Props.C24"
   ],
   "note": "For ids other than UINTPTR_MAX, which the code reserves to mark empty buckets."
  },
  {
   "property": "C25",
   "status": "partial",
   "theorems": [
    "OpenMethod.Props.C25_partial",
    "OpenMethod.Props.C25_fails",
    "OpenMethod.Props.C25_refuted"
   ],
   "note": "The number of attempts is right; the number of buckets reported is twice that used (C25_refuted). C25_fails: a class with many ids always makes the search fail."
  },
  {
   "property": "C26",
   "status": "proved",
   "theorems": [
    "OpenMethod.Props.C26"
   ],
   "note": "With or without hash, direct or indirect, any previous state; ids other than UINTPTR_MAX."
  },
  {
   "property": "C27",
   "status": "proved",
   "theorems": [
    "OpenMethod.Props.C27"
   ],
   "note": "Any previous state."
  },
  {
   "property": "C28",
   "status": "partial",
   "theorems": [
    "OpenMethod.Props.C28_partial",
    "OpenMethod.Props.C28_above_partial",
    "OpenMethod.Props.C28_exact",
    "OpenMethod.Props.C28_stale",
    "OpenMethod.Props.C28_stale_indirect",
    "OpenMethod.Props.C28_unchecked",
    "OpenMethod.Props.C28_unchecked_map",
    "OpenMethod.Props.C28_refuted"
   ],
   "note": "Refuted for vptr_vector without a hash: ids smaller than the largest registered one are not detected. Proved for vptr_map and for vptr_vector with fast_perfect_hash, when no slot conflict (C06) or misplaced parameter (C05) intervenes; for vptr_vector alone, larger ids are detected. C28_exact: starting with an empty vector, vptr_vector alone detects exactly the unregistered nonzero ids that are larger than all the registered ones; the use of the others is undefined behaviour. C28_stale: in all histories, with direct v-table pointers, a call of which the first virtual argument is of an unregistered class enters no overrider. C28_stale_indirect: with indirect_vptr it can, if the id shared its static_vptr with a class that is registered; the object is then treated as one of that class. C28_unchecked: without runtime_checks, with a vector, if such an object is the first virtual argument, the behaviour is undefined or that for an object of a registered class. C28_unchecked_map: with vptr_map it is undefined."
  },
  {
   "property": "C29",
   "status": "proved",
   "theorems": [
    "OpenMethod.Props.C29",
    "OpenMethod.Props.C29_again"
   ],
   "note": "Every history of push_back, remove and clear; null dereference and failed assertions are undefined behaviour in the model; iteration and clear end."
  },
  {
   "property": "C30",
   "status": "proved",
   "theorems": [
    "OpenMethod.Props.C30",
    "OpenMethod.Props.C30_converse",
    "OpenMethod.Props.C30_unchecked"
   ],
   "note": "Every history; virtual_ptrs made from objects without an embedded v-table pointer. C30_unchecked: without runtime_checks, in the same histories, every call has undefined behaviour."
  },
  {
   "property": "C31",
   "status": "proved",
   "theorems": [
    "OpenMethod.Props.C31",
    "OpenMethod.Props.C31_result",
    "OpenMethod.Props.C31_next"
   ],
   "note": "From any two states. Arguments: objects of registered classes, virtual_ptrs made from them, and objects of classes that are detected as unregistered (C28); calls with undetected unregistered objects are undefined behaviour and excluded."
  },
  {
   "property": "C32",
   "status": "partial",
   "theorems": [
    "OpenMethod.Props.C32_partial",
    "OpenMethod.Props.C32_data_partial",
    "OpenMethod.Props.C32_refuted"
   ],
   "note": "Refuted: when the search for hash factors fails, static_vptrs already refer to the new dispatch data, which is destroyed. All other errors leave the registry exactly as it was."
  },
  {
   "property": "C33",
   "status": "partial",
   "theorems": [
    "OpenMethod.Props.C33_partial",
    "OpenMethod.Props.C33_direct",
    "OpenMethod.Props.C33_follows",
    "OpenMethod.Props.C33_orphan",
    "OpenMethod.Props.C33_refuted"
   ],
   "note": "Second part (direct pointers dangle) proved. First part proved when the static_vptr variable of the class is the same; refuted when a class is registered by several modules that do not share it and the first one is unloaded. C33_follows, C33_orphan: in all histories, an indirect virtual_ptr follows the registered class to which its static_vptr belongs; if there is none, calls of which it is the first virtual argument have undefined behaviour, and enter no overrider."
  },
  {
   "property": "C34",
   "status": "partial",
   "theorems": [
    "OpenMethod.Props.C34_partial",
    "OpenMethod.Props.C34_refuted"
   ],
   "note": "Refuted when a class is registered by several modules that do not share its static_vptr: final_virtual_ptr uses the variable of its own module, which initialize may not write. Proved for all chains of conversions when the records of a class share its static_vptr."
  },
  {
   "property": "C35",
   "status": "partial",
   "theorems": [
    "OpenMethod.Props.C35_partial",
    "OpenMethod.Props.C35_refuted",
    "OpenMethod.Props.C35_null_refuted",
    "OpenMethod.Props.C35_smart_refuted",
    "OpenMethod.Props.C35_cast_refuted",
    "OpenMethod.Props.C35_failed_cast_refuted",
    "OpenMethod.Props.C35_error_refuted",
    "OpenMethod.Props.C35_final_refuted",
    "OpenMethod.Props.C35_default"
   ],
   "note": "Proved for all sequences of operations that avoid the situations listed in PtrOp.Safe. Each of those situations has its own refutation."
  },
  {
   "property": "C36",
   "status": "partial",
   "theorems": [
    "OpenMethod.Props.C36_actual",
    "OpenMethod.Props.C36_partial",
    "OpenMethod.Props.C36_refuted"
   ],
   "note": "The code compares type ids, not classes: refuted for a class with several type ids. C36_actual says what is checked in all cases."
  },
  {
   "property": "C37",
   "status": "partial",
   "theorems": [
    "OpenMethod.Props.C37_construction",
    "OpenMethod.Props.C37_partial",
    "OpenMethod.Props.C37_nonVirtual",
    "OpenMethod.Props.C37_single",
    "OpenMethod.Props.C37_read",
    "OpenMethod.Props.C37_complete",
    "OpenMethod.Props.C37_refuted"
   ],
   "note": "Construction and complete objects: proved for every hierarchy. Destruction: proved when no v-table pointer is shared by two bases of a class (in particular without virtual bases, or without multiple inheritance); refuted for a diamond with a virtual root."
  },
  {
   "property": "C38",
   "status": "partial",
   "theorems": [
    "OpenMethod.Props.C38_partial",
    "OpenMethod.Props.C38_two_partial",
    "OpenMethod.Props.C38_off",
    "OpenMethod.Props.C38_refuted"
   ],
   "note": "The code dereferences a null pointer with three mutually ambiguous overriders (C38_refuted). Proved when no three undominated overriders form the hazard, and without n2216."
  },
  {
   "property": "C39",
   "status": "partial",
   "theorems": [
    "OpenMethod.Props.C39_noAmbiguity",
    "OpenMethod.Props.C39_partial",
    "OpenMethod.Props.C39_transitive_partial",
    "OpenMethod.Props.C39_founded_partial",
    "OpenMethod.Props.C39_applicable_partial",
    "OpenMethod.Props.C39_refuted"
   ],
   "note": "First part (no ambiguous_call) proved in full. The choice of overrider is refuted under multiple inheritance, proved when dominance is transitive, and more generally when dominated overriders are dominated by undominated ones."
  },
  {
   "property": "C40",
   "status": "partial",
   "theorems": [
    "OpenMethod.Props.C40_lookup",
    "OpenMethod.Props.C40_without",
    "OpenMethod.Props.C40_partial",
    "OpenMethod.Props.C40_refuted"
   ],
   "note": "Refuted: with<P> appends a second P if P itself is in the list. Proved for policies that are not already in the list, and for their lookup."
  },
  {
   "property": "C41",
   "status": "partial",
   "theorems": [
    "OpenMethod.Props.C41_actual",
    "OpenMethod.Props.C41_partial",
    "OpenMethod.Props.C41_refuted"
   ],
   "note": "The code counts all parameters, virtual or not (C41_refuted). C41_actual says what is reported in all cases."
  },
  {
   "property": "C42",
   "status": "partial",
   "theorems": [
    "OpenMethod.Props.C42_partial",
    "OpenMethod.Props.C42_refuted"
   ],
   "note": "Refuted for registrations that are not order-safe; proved for the others, any inheritance graph."
  },
  {
   "property": "C43",
   "status": "proved",
   "theorems": [
    "OpenMethod.Props.C43",
    "OpenMethod.Props.C43_converse",
    "OpenMethod.Props.C43_returns",
    "OpenMethod.Props.C43_throw"
   ],
   "note": "All operations that can report an error, all error handler policies, all behaviours of user-provided handlers that do not themselves use the library. The effectful model of each function is proved equal to the one used for the other properties."
  },
  {
   "property": "C44",
   "status": "proved",
   "theorems": [
    "OpenMethod.Props.C44"
   ],
   "note": "All sequences of operations, including failing ones. Handlers that call `set` while they run are out of scope."
  },
  {
   "property": "C45",
   "status": "proved",
   "theorems": [
    "OpenMethod.Props.C45"
   ],
   "note": "Any number of registries, any interleaving, shared memory and allocator; variables of different registries are distinct, as C++ guarantees for static members of templates."
  },
  {
   "property": "C46",
   "status": "proved",
   "theorems": [
    "OpenMethod.Props.C46"
   ],
   "note": "Equality of the complete result of initialize (report, dispatch data, v-table pointers, errors), any platform, any setting of n2216."
  },
  {
   "property": "C47",
   "status": "partial",
   "theorems": [
    "OpenMethod.Props.C47_partial",
    "OpenMethod.Props.C47_refuted"
   ],
   "note": "Inheritance and errors proved in full; outcomes of calls proved when both registrations are order-safe, refuted otherwise."
  },
  {
   "property": "C48",
   "status": "partial",
   "theorems": [
    "OpenMethod.Props.C48_partial",
    "OpenMethod.Props.C48_refuted"
   ],
   "note": "Proved for calls with a safe order of registration and any inheritance graph; refuted otherwise."
  },
  {
   "property": "C49",
   "status": "proved",
   "theorems": [
    "OpenMethod.Props.C49"
   ],
   "note": "Any platform, with or without n2216, any registration order."
  },
  {
   "property": "C50",
   "status": "partial",
   "theorems": [
    "OpenMethod.Props.C50_partial",
    "OpenMethod.Props.C50_direct",
    "OpenMethod.Props.C50_never",
    "OpenMethod.Props.C50_refuted"
   ],
   "note": "Refuted: box_vptr takes the address of a temporary, so that no virtual_ptr created from such an object can be used afterwards (C50_never). The object itself can be used after any initialize (C50_partial); without indirect_vptr the virtual_ptr is valid too (C50_direct)."
  },
  {
   "property": "C51",
   "status": "proved",
   "theorems": [
    "OpenMethod.Props.C51",
    "OpenMethod.Props.C51_calls"
   ],
   "note": "Every history, all policies. Emptied, not deallocated: std::vector::clear keeps its capacity. Without runtime_checks, a call after finalize has undefined behaviour (C51_calls)."
  },
  {
   "property": "C52",
   "status": "proved",
   "theorems": [
    "OpenMethod.Props.C52"
   ],
   "note": "All operations and handler policies. The text of the description is not modelled."
  },
  {
   "property": "C53",
   "status": "proved",
   "theorems": [
    "OpenMethod.Props.C53",
    "OpenMethod.Props.C53_vector"
   ],
   "note": "Any random generator; ids other than UINTPTR_MAX."
  },
  {
   "property": "C54",
   "status": "proved",
   "theorems": [
    "OpenMethod.Props.C54"
   ],
   "note": "Object lifetimes as C++ guarantees them for static objects: constructed in zeroed storage, destroyed once; the storage of a method stays while it has overriders."
  },
  {
   "property": "C55",
   "status": "proved",
   "theorems": [
    "OpenMethod.Props.C55",
    "OpenMethod.Props.C55_calls"
   ],
   "note": "Same assumptions as C54; calls compared as in C31."
  },
  {
   "property": "C56",
   "status": "partial",
   "theorems": [
    "OpenMethod.Props.C56_partial",
    "OpenMethod.Props.C56_next_partial",
    "OpenMethod.Props.C56_refuted"
   ],
   "note": "Refuted with repeated inheritance, which is documented as unsupported but accepted by the compiler when the classes are registered in several lists. Proved otherwise, under the conditions of C09 for calls and of C14 for next. Covers overriders that pass to next the arguments they received."
  },
  {
   "property": "C57",
   "status": "proved",
   "theorems": [
    "OpenMethod.Props.C57",
    "OpenMethod.Props.C57_sound",
    "OpenMethod.Props.C57_together",
    "OpenMethod.Props.C57_rejects"
   ],
   "note": "Public inheritance; the hierarchy is a parameter."
  },
  {
   "property": "C58",
   "status": "partial",
   "theorems": [
    "OpenMethod.Props.C58_settled_partial",
    "OpenMethod.Props.C58_transitive_partial",
    "OpenMethod.Props.C58_partial",
    "OpenMethod.Props.C58_refuted"
   ],
   "note": "Refuted: a documented way to register classes in several lists leads to the overrider of another method (finding 1). Proved when the order of registration is supported (always the case with a single use_classes), virtual parameters are contiguous, and the choice is settled by direct comparisons among the applicable overriders, which it is when there is one virtual parameter or no multiple inheritance above the arguments; n2216 not requested."
  },
  {
   "property": "C59",
   "status": "partial",
   "theorems": [
    "OpenMethod.Props.C59_partial",
    "OpenMethod.Props.C59_rvalue",
    "OpenMethod.Props.C59_ambiguous",
    "OpenMethod.Props.C59_refuted"
   ],
   "note": "Refuted in both directions: the same const virtual_ptr& in method and overrider is rejected because two partial specialisations are equally good, non-virtual rvalue references are rejected, and for virtual_ parameters the classes are not compared. Proved: documented overriders are accepted apart from the listed exceptions, and accepted parameters other than virtual_ are documented ones. All classes polymorphic (C62 for the others); std_rtti; no cv-qualifiers except const T&; for virtual_ parameters of other forms, see C75."
  },
  {
   "property": "C60",
   "status": "partial",
   "theorems": [
    "OpenMethod.Props.C60_partial",
    "OpenMethod.Props.C60_refuted",
    "OpenMethod.Props.C75_rvalue"
   ],
   "note": "Refuted for virtual_ptr<T>& (not const), which is counted as virtual but has no class in the overrider. Proved for methods without such parameters, when for the parameters marked with virtual_ the class of the overrider has that of the method as an unambiguous base, and the forms of the types go together (Fits): the same, const, by value or by const reference. C75_rvalue: also refuted for rvalue references to smart pointers."
  },
  {
   "property": "C61",
   "status": "partial",
   "theorems": [
    "OpenMethod.Props.C61_partial",
    "OpenMethod.Props.C61_refuted"
   ],
   "note": "Refuted: const virtual_ptr& of another registry is accepted, and std::shared_ptr<T>& is rejected as a non-virtual parameter. Proved for all other types."
  },
  {
   "property": "C62",
   "status": "partial",
   "theorems": [
    "OpenMethod.Props.C62_partial",
    "OpenMethod.Props.C62_exact",
    "OpenMethod.Props.C62_refuted"
   ],
   "note": "C62_exact: exactly which overriders are accepted, polymorphic or not, for virtual parameters of the same form. Refuted for std::unique_ptr and const std::shared_ptr&, which always use dynamic_cast. Proved for all other ways of passing arguments, apart from the exceptions of C59."
  },
  {
   "property": "C63",
   "status": "partial",
   "theorems": [
    "OpenMethod.Props.C63_partial",
    "OpenMethod.Props.C63_refuted"
   ],
   "note": "End-to-end composition of C54, C57 to C60, C64 and C20. Refuted like C58. Proved under the same conditions as C58 (supported order of registration, contiguous virtual parameters, the choice is settled by direct comparisons among the applicable overriders), for programs that meet the requirements the library does not check (Source.Ok)."
  },
  {
   "property": "C64",
   "status": "partial",
   "theorems": [
    "OpenMethod.Props.C64_partial",
    "OpenMethod.Props.C64_accepted",
    "OpenMethod.Props.C64_class",
    "OpenMethod.Props.C64_record",
    "OpenMethod.Props.C64_result",
    "OpenMethod.Props.C64_other",
    "OpenMethod.Props.C64_void",
    "OpenMethod.Props.C64_registry",
    "OpenMethod.Props.C64_refuted"
   ],
   "note": "Refuted: any implicit conversion is accepted, for instance from an object to a const reference, which dangles. Proved: documented overriders are accepted; among types of the same form only those; the classes of accepted return types are always related; records of documented overriders name them, and the result designates the same object. Conversions defined by the user and nullptr are not represented."
  },
  {
   "property": "C65",
   "status": "partial",
   "theorems": [
    "OpenMethod.Props.C65_partial",
    "OpenMethod.Props.C65_refuted",
    "OpenMethod.Props.C65_deterministic"
   ],
   "note": "Refinement: the executable semantics of a program (records, tables, thunks, casts) ends in a state if and only if the documented semantics on its declarations does, and never in undefined behaviour. Refuted without the supported order of registration, as C63. Proved under the conditions of C63 for calls; overriders that use next belong to methods whose overriders are nested (see C13), and pass to next arguments that they accept themselves. The code of the user respects a contract (types of arguments and results). No module is loaded during the run."
  },
  {
   "property": "C66",
   "status": "partial",
   "theorems": [
    "OpenMethod.Props.C66_partial",
    "OpenMethod.Props.C66_found",
    "OpenMethod.Props.C66_selected",
    "OpenMethod.Props.C66_overloads",
    "OpenMethod.Props.C66_refuted"
   ],
   "note": "Refuted by overloaded methods: if several methods of a name accept the arguments, the call or overrider is rejected, even if one is a better match. Proved: a method is found exactly if it is the only one of its name that accepts the arguments; then the overriders that are added are those with documented parameters, apart from the exceptions of C59 and from smart pointers passed in another way than to the method, and virtual_ptrs marked with virtual_. Name lookup is not represented."
  },
  {
   "property": "C67",
   "status": "proved",
   "theorems": [
    "OpenMethod.Props.C67",
    "OpenMethod.Props.C67_function",
    "OpenMethod.Props.C67_call"
   ],
   "note": "All well-typed code, any depth of calls, any overrider and any failure of casts. Typing includes what C++ leaves to the programmer: a variable that is moved is not used otherwise in the same call, and functions do not change the variables of their callers. Weak pointers, custom deleters and owners inside of objects are not represented."
  },
  {
   "property": "C68",
   "status": "proved",
   "theorems": [
    "OpenMethod.Props.C68",
    "OpenMethod.Props.C68_room"
   ],
   "note": "All 64-bit values. std::to_chars is modelled as the standard specifies it. C68_room: one character less would not be enough."
  },
  {
   "property": "C69",
   "status": "partial",
   "theorems": [
    "OpenMethod.Props.C69_partial",
    "OpenMethod.Props.C69_exact_partial",
    "OpenMethod.Props.C69_unambiguous",
    "OpenMethod.Props.C69_safe",
    "OpenMethod.Props.C69_how",
    "OpenMethod.Props.C69_returned",
    "OpenMethod.Props.C69_refuted_pointer",
    "OpenMethod.Props.C69_refuted_rvalue"
   ],
   "note": "Refuted: pointers are rejected if the class of a plain virtual pointer is not polymorphic though that of the object is; rvalues of const type are accepted. C69_exact_partial says exactly what is accepted. The other parts of the statement are proved: C69_unambiguous, C69_safe, C69_how. C69_returned: the model of return types (C64) agrees."
  },
  {
   "property": "C70",
   "status": "partial",
   "theorems": [
    "OpenMethod.Props.C70_final_partial",
    "OpenMethod.Props.C70_make",
    "OpenMethod.Props.C70_final_sound",
    "OpenMethod.Props.C70_deduced_partial",
    "OpenMethod.Props.C70_deduced_copy",
    "OpenMethod.Props.C70_deduced_sound",
    "OpenMethod.Props.C70_refuted_lvalue",
    "OpenMethod.Props.C70_refuted_const",
    "OpenMethod.Props.C70_refuted_deduced",
    "OpenMethod.Props.C70_refuted",
    "OpenMethod.Props.C70_refuted_second"
   ],
   "note": "Refuted for smart pointers that are lvalues: final_virtual_ptr does not compile, or, if they are const, returns a virtual pointer to the smart pointer; no type is deduced for const smart pointers. Proved for all other arguments, and the types and v-tables of all results are right (sound theorems). Run-time checks of final_virtual_ptr are in C36."
  },
  {
   "property": "C71",
   "status": "partial",
   "theorems": [
    "OpenMethod.Props.C71_partial",
    "OpenMethod.Props.C71_ops",
    "OpenMethod.Props.C71_final_ops",
    "OpenMethod.Props.C71_refuted",
    "OpenMethod.Props.C71_null_refuted"
   ],
   "note": "C71_ops and C71_final_ops: all accepted statements are covered. Refuted by null pointers: pointers that are null, the assignment from a null smart pointer that is not an rvalue, and final_virtual_ptr of a null smart pointer dereference them. Proved otherwise, for all sequences of statements after initialize, without runtime changes of registration. Casts of virtual pointers are in C72."
  },
  {
   "property": "C72",
   "status": "partial",
   "theorems": [
    "OpenMethod.Props.C72_partial",
    "OpenMethod.Props.C72_accepts",
    "OpenMethod.Props.C72_agrees",
    "OpenMethod.Props.C72_params",
    "OpenMethod.Props.C72_refuted",
    "OpenMethod.Props.C72_null_refuted",
    "OpenMethod.Props.C72_moved_refuted",
    "OpenMethod.Props.C72_unique_refuted"
   ],
   "note": "C72_accepts says exactly which casts are accepted: the permitted ones, except those of std::unique_ptr that need a static_cast (C72_unique_refuted). Refuted by casts of null pointers, other than std::shared_ptr and static casts of boost::intrusive_ptr, and by virtual pointers that have been moved from, or from which a std::shared_ptr was cast without success: they keep the v-table pointer. C72_partial proves the rest, for all sequences of statements and casts. C72_agrees: without repeated inheritance, the casts are those of C++ subobjects."
  },
  {
   "property": "C73",
   "status": "partial",
   "theorems": [
    "OpenMethod.Props.C73_partial",
    "OpenMethod.Props.C73_copy",
    "OpenMethod.Props.C73_bodies",
    "OpenMethod.Props.C73_complete",
    "OpenMethod.Props.C73_sliced",
    "OpenMethod.Props.C73_assign",
    "OpenMethod.Props.C73_assigned",
    "OpenMethod.Props.C73_within",
    "OpenMethod.Props.C73_refuted",
    "OpenMethod.Props.C73_user_refuted",
    "OpenMethod.Props.C73_body_refuted",
    "OpenMethod.Props.C73_assign_refuted"
   ],
   "note": "Refuted: slices and assignments through a base have the class of the source, copies of objects with a base whose copy constructor is user-written have the class of that base, and the bodies of the copy constructors of bases find the class of the source. C73_copy, C73_bodies and C73_assign give the exact conditions under which the statement holds."
  },
  {
   "property": "C74",
   "status": "partial",
   "theorems": [
    "OpenMethod.Props.C74_partial",
    "OpenMethod.Props.C74_written",
    "OpenMethod.Props.C74_calls",
    "OpenMethod.Props.C74_ok",
    "OpenMethod.Props.C74_accepted",
    "OpenMethod.Props.C74_rejected",
    "OpenMethod.Props.C74_refuted"
   ],
   "note": "Composition of C66 with C63 and C65, for programs written with the macros that are accepted. Refuted without the supported order of registration, as C63. Proved under the conditions of C63 and C65; the condition on the classes of parameters marked with virtual_ is not needed, but rvalue references to smart pointers are excluded. C74_accepted: which programs are accepted; C74_rejected: overloads of which one is better are not distinguished, as in C66."
  },
  {
   "property": "C75",
   "status": "partial",
   "theorems": [
    "OpenMethod.Props.C75_partial",
    "OpenMethod.Props.C75_exact",
    "OpenMethod.Props.C75_accepted",
    "OpenMethod.Props.C75_marked",
    "OpenMethod.Props.C75_smart",
    "OpenMethod.Props.C75_vptr",
    "OpenMethod.Props.C75_intrusive",
    "OpenMethod.Props.C75_unique",
    "OpenMethod.Props.C75_rvalue",
    "OpenMethod.Props.C75_refuted"
   ],
   "note": "Refuted: for parameters marked with virtual_, the compiler accepts overriders whose parameter has another form, which throw, dangle, own the object twice, or leave it without owner (C75_smart, C75_vptr, C75_intrusive, C75_unique). C75_exact: the object is handed over in all other cases, and only in these. C75_accepted and C75_marked: exactly which overriders of the useful other forms are accepted. Types of the model: no cv-qualifiers except const T&, no user-defined conversions."
  },
  {
   "property": "C76",
   "status": "partial",
   "theorems": [
    "OpenMethod.Props.C76_partial",
    "OpenMethod.Props.C76_exact",
    "OpenMethod.Props.C76_accepted",
    "OpenMethod.Props.C76_sound",
    "OpenMethod.Props.C76_ub",
    "OpenMethod.Props.C76_refl",
    "OpenMethod.Props.C76_symm",
    "OpenMethod.Props.C76_trans",
    "OpenMethod.Props.C76_refuted",
    "OpenMethod.Props.C76_not_transitive"
   ],
   "note": "Refuted with repeated inheritance: pointers to two bases of the same class in one object are not equal, and == is not transitive. C76_exact: what == compares in all cases; C76_partial: the documented meaning without repeated inheritance in the object; C76_accepted: which comparisons are accepted. Comparisons between pointers are those of C++, for pointers to parts of live objects."
  },
  {
   "property": "C77",
   "status": "proved",
   "theorems": [
    "OpenMethod.Props.C77_initialize",
    "OpenMethod.Props.C77_history",
    "OpenMethod.Props.C77_call",
    "OpenMethod.Props.C77_final",
    "OpenMethod.Props.C77_dispatch",
    "OpenMethod.Props.C77_outcome",
    "OpenMethod.Props.C77_notInitialized",
    "OpenMethod.Props.C77_unchecked"
   ],
   "note": "C77_initialize and C77_history: lockstep with the model of a registry with vptr_map. C77_call: calls. C77_dispatch: the calls are of the kind to which C01-C09 apply, C77_outcome is C01_partial for them. That a class has one static_vptr is part of the statement: see C34_refuted otherwise."
  },
  {
   "property": "C78",
   "status": "partial",
   "theorems": [
    "OpenMethod.Props.C78_partial",
    "OpenMethod.Props.C78_detected",
    "OpenMethod.Props.C78_reported",
    "OpenMethod.Props.C78_error",
    "OpenMethod.Props.C78_noError",
    "OpenMethod.Props.C78_others",
    "OpenMethod.Props.C78_unshared",
    "OpenMethod.Props.C78_refuted",
    "OpenMethod.Props.C78_indirect_refuted"
   ],
   "note": "Refuted: the error remains after the inconsistent library was unloaded, and is never reported for indirect_registry, for which odr_check has no instance. Proved for default_registry: inconsistencies are always detected (C78_detected), only when there are or were some (C78_reported), and exactly when libraries are only loaded (C78_partial). C78_unshared: platforms where modules do not share variables. Not represented: initialize called while static variables are initialized."
  },
  {
   "property": "C79",
   "status": "partial",
   "theorems": [
    "OpenMethod.Props.C79_partial",
    "OpenMethod.Props.C79_same",
    "OpenMethod.Props.C79_absent",
    "OpenMethod.Props.C79_off",
    "OpenMethod.Props.C79_sound",
    "OpenMethod.Props.C79_classes",
    "OpenMethod.Props.C79_names",
    "OpenMethod.Props.C79_report",
    "OpenMethod.Props.C79_culprit",
    "OpenMethod.Props.C79_env",
    "OpenMethod.Props.C79_refuted"
   ],
   "note": "Refuted for registries with fast_perfect_hash: with trace::on false, initialize still writes the line that announces the search for hash factors (C79_refuted; C79_off says that it is the only one). All other parts are proved for all configurations. The traced model evaluates the expressions of the trace, with undefined behaviour as an outcome; C79_same shows that they add none. Not represented: the trace being interrupted by a failing output stream."
  },
  {
   "property": "C80",
   "status": "partial",
   "theorems": [
    "OpenMethod.Props.C80_partial",
    "OpenMethod.Props.C80_exact",
    "OpenMethod.Props.C80_ignored",
    "OpenMethod.Props.C80_accepted",
    "OpenMethod.Props.C80_ambiguous",
    "OpenMethod.Props.C80_refuted"
   ],
   "note": "Refuted: options that are variables or constants are silently ignored (C80_ignored), because the deduced types are then references or const; with n2216, calls remain ambiguous (C80_ambiguous). Proved for rvalues that are not const (C80_partial); C80_exact: the others have no effect. C80_accepted: which calls compile."
  },
  {
   "property": "C81",
   "status": "partial",
   "theorems": [
    "OpenMethod.Props.C81_partial",
    "OpenMethod.Props.C81_exact",
    "OpenMethod.Props.C81_adl",
    "OpenMethod.Props.C81_enclosing",
    "OpenMethod.Props.C81_using",
    "OpenMethod.Props.C81_directive",
    "OpenMethod.Props.C81_calls",
    "OpenMethod.Props.C81_same",
    "OpenMethod.Props.C81_container",
    "OpenMethod.Props.C81_qualify",
    "OpenMethod.Props.C81_written",
    "OpenMethod.Props.C81_works",
    "OpenMethod.Props.C81_salesman",
    "OpenMethod.Props.C81_unrelated",
    "OpenMethod.Props.C81_clash",
    "OpenMethod.Props.C81_transitive",
    "OpenMethod.Props.C81_member",
    "OpenMethod.Props.C81_hidden",
    "OpenMethod.Props.C81_refuted",
    "OpenMethod.Props.C81_found_refuted"
   ],
   "note": "Refuted: a method in a namespace that neither encloses the overrider nor contains a class of its arguments, or a base, is not found (C81_unrelated); and a using directive for the namespace of the method makes the name of the container ambiguous (C81_clash, C81_directive). C81_exact characterises the overriders that are accepted, and the method to which they are added, with name lookup specified by a relation. C81_adl, C81_enclosing, C81_using: when methods are found."
  },
  {
   "property": "C82",
   "status": "proved",
   "theorems": [
    "OpenMethod.Props.C82",
    "OpenMethod.Props.C82_64"
   ],
   "note": "All word sizes of 32 bits or more; int has 32 bits. C82_64: with 64 bits, this is the model used in the other properties."
  },
  {
   "property": "C83",
   "status": "proved",
   "theorems": [
    "OpenMethod.Props.C83",
    "OpenMethod.Props.C83_same",
    "OpenMethod.Props.C83_bound",
    "OpenMethod.Props.C83_constant",
    "OpenMethod.Props.C83_virtual_ptr",
    "OpenMethod.Props.C83_reference",
    "OpenMethod.Props.C83_make",
    "OpenMethod.Props.C83_selects"
   ],
   "note": "Reads of variables are counted; dynamic_type and a search in vptr_map's map count as one read. C83 is exact when the virtual parameters are contiguous; C83_bound is for any parameters (see C05), and if an error is detected."
  },
  {
   "property": "C84",
   "status": "partial",
   "theorems": [
    "OpenMethod.Props.C84_again_partial",
    "OpenMethod.Props.C84_data",
    "OpenMethod.Props.C84_early",
    "OpenMethod.Props.C84_errors",
    "OpenMethod.Props.C84_recovers",
    "OpenMethod.Props.C84_dangling",
    "OpenMethod.Props.C84_dangling_objects",
    "OpenMethod.Props.C84_refuted",
    "OpenMethod.Props.C84_refuted_indirect",
    "OpenMethod.Props.C84_refuted_hash",
    "OpenMethod.Props.C84_refuted_checked",
    "OpenMethod.Props.C84_refuted_vector"
   ],
   "note": "Refuted: when an allocation fails in vptr::initialize, static_vptrs refer to tables that are destroyed (C84_dangling), and slots and hash factors are those of the new tables (C84_refuted, C84_refuted_hash). C84_data, C84_early, C84_errors: what is kept in any case. C84_recovers: a later initialize repairs everything. C84_again_partial: if the registrations are unchanged, virtual_ptrs are direct, and the hash function, if any, is checked, the failure is not visible."
  },
  {
   "property": "C85",
   "status": "proved",
   "theorems": [
    "OpenMethod.Props.C85",
    "OpenMethod.Props.C85_schedule",
    "OpenMethod.Props.C85_reads",
    "OpenMethod.Props.C85_footprint",
    "OpenMethod.Props.C85_calls",
    "OpenMethod.Props.C85_races",
    "OpenMethod.Props.C85_mixed",
    "OpenMethod.Props.C85_shared_refuted",
    "OpenMethod.Props.C85_released"
   ],
   "note": "C85: no data race, results as if alone, and no undefined behaviour, if registries are not initialized or finalized by a thread while another one uses them; C85_schedule: results do not depend on the interleaving; C85_reads: calls only read; C85_footprint: accesses that are not considered to be in conflict do not influence each other; C85_calls: threads that only read. The condition is necessary: C85_races, C85_mixed, C85_shared_refuted, C85_released."
  },
  {
   "property": "C86",
   "status": "proved",
   "theorems": [
    "OpenMethod.Props.C86",
    "OpenMethod.Props.C86_twice",
    "OpenMethod.Props.C86_loop",
    "OpenMethod.Props.C86_corrected"
   ],
   "note": "C86: some order of the same records; C86_twice: all classes registered once more, in any order. In both cases the conditions of all theorems on calls are met, and the outcomes are those documented for the original program (Repairs). C86_loop, C86_corrected: a correction of augment_classes, for which C01 holds in full."
  },
  {
   "property": "C87",
   "status": "proved",
   "theorems": [
    "OpenMethod.Props.C87",
    "OpenMethod.Props.C87_stored",
    "OpenMethod.Props.C87_call"
   ],
   "note": "C87: compile and write_global_data modulo B are the same as with natural numbers, if the dispatch data has less than B words; the bound is exact in the example. C87_stored: bounds of what is stored, including slots. C87_call: calls. The displacement of v-table pointers by the first slot is formally outside of the vector and is not counted."
  },
  {
   "property": "C88",
   "status": "partial",
   "theorems": [
    "OpenMethod.Props.C88_partial",
    "OpenMethod.Props.C88_text",
    "OpenMethod.Props.C88_default",
    "OpenMethod.Props.C88_lines",
    "OpenMethod.Props.C88_output",
    "OpenMethod.Props.C88_what",
    "OpenMethod.Props.C88_off",
    "OpenMethod.Props.C88_newline",
    "OpenMethod.Props.C88_refuted"
   ],
   "note": "C88_refuted: the descriptions of bad calls say nothing about the call. C88_partial: otherwise the description tells the class of the error and the names of the classes at fault, if names are plain; C88_default: with the default type_name, the classes. C88_text: the texts. C88_lines: the text left by several errors. C88_output: composed with the operations of C52. C88_what: exceptions. C88_newline: which descriptions are one line."
  },
  {
   "property": "C89",
   "status": "proved",
   "theorems": [
    "OpenMethod.Props.C89",
    "OpenMethod.Props.C89_right",
    "OpenMethod.Props.C89_library",
    "OpenMethod.Props.C89_accepted",
    "OpenMethod.Props.C89_order",
    "OpenMethod.Props.C89_accepts",
    "OpenMethod.Props.C89_defined",
    "OpenMethod.Props.C89_report"
   ],
   "note": "C89: a set of corrections suffices if and only if it contains all three. C89_accepted: corrections do not change which programs are accepted. C89_order, C89_accepts, C89_report: C06, C09 and C17, which the library violates, hold in full with the corrections; C89_defined: no call is undefined. next is not covered: a single pointer for each overrider cannot be right for all arguments (C90_impossible)."
  },
  {
   "property": "C90",
   "status": "proved",
   "theorems": [
    "OpenMethod.Props.C90",
    "OpenMethod.Props.C90_exact",
    "OpenMethod.Props.C90_call",
    "OpenMethod.Props.C90_impossible",
    "OpenMethod.Props.C90_transitive",
    "OpenMethod.Props.C90_corrected",
    "OpenMethod.Props.C90_corrected_call"
   ],
   "note": "C90: if any function is right as next of an overrider for all calls that run it, the stored one is. C90_exact: this is so exactly when all these calls would do the same thing without the overrider. C90_impossible: a valid program for which no function is right. C90_corrected, C90_corrected_call: the same without conditions, for the corrected choice of overriders of C89, in which more specific need not be transitive; C90_transitive: in the library this condition is needed. C90, C90_exact and C90_call assume that being more specific is transitive among applicable overriders (finding 2), and C90_call that slots and arguments are read correctly, as C13_partial does."
  },
  {
   "property": "C91",
   "status": "proved",
   "theorems": [
    "OpenMethod.Props.C91",
    "OpenMethod.Props.C91_calls",
    "OpenMethod.Props.C91_lost",
    "OpenMethod.Props.C91_shared_refuted",
    "OpenMethod.Props.C91_init_races",
    "OpenMethod.Props.C91_handler_races"
   ],
   "note": "In the model of memory accesses of Model/Loading.lean (groups of variables: tables, lists, error handler; sequentially consistent accesses). LSeparate is the condition on what threads share; C91_shared_refuted, C91_lost, C91_init_races and C91_handler_races show what happens without it."
  },
  {
   "property": "C92",
   "status": "proved",
   "theorems": [
    "OpenMethod.Props.C92",
    "OpenMethod.Props.C92_call",
    "OpenMethod.Props.C92_differs"
   ],
   "note": "C92: exact condition on the kinds of pointers and the hierarchy for null arguments of next; C92_call for calls; C92_differs: one program in which shared_ptr and intrusive_ptr differ."
  },
  {
   "property": "C93",
   "status": "proved",
   "theorems": [
    "OpenMethod.Props.C93"
   ],
   "note": "In the model of memory accesses of Model/Loading.lean and Model/Locks.lean. The lock belongs to the program that uses the library; the library has none (C85_races, C91_lost). reloading_right: a concrete program that meets the hypothesis and shares a registry."
  },
  {
   "property": "C94",
   "status": "partial",
   "theorems": [
    "OpenMethod.Props.C94_partial",
    "OpenMethod.Props.C94_refuted",
    "OpenMethod.Props.C94_exact",
    "OpenMethod.Props.C94_listed",
    "OpenMethod.Props.C94_unlisted",
    "OpenMethod.Props.C94_once",
    "OpenMethod.Props.C94_library"
   ],
   "note": "Refuted if a policy that is added is already in the registry (see C40): its errors are twice in error_variant, and the program is rejected. Proved otherwise, if policies list different errors. C94_exact: what the handler receives in all cases. C94_library: the errors of the library, in all registries made of its policies. The rules of C++ for std::variant and overload resolution are part of the model."
  },
  {
   "property": "C95",
   "status": "partial",
   "theorems": [
    "OpenMethod.Props.C95_partial",
    "OpenMethod.Props.C95_refuted",
    "OpenMethod.Props.C95_exact",
    "OpenMethod.Props.C95_first",
    "OpenMethod.Props.C95_library"
   ],
   "note": "Refuted for error classes of the program that derive from std::runtime_error: the base is then ambiguous. C95_exact: as what exceptions can be caught, in all cases. C95_library: all errors of the library are caught as documented."
  },
  {
   "property": "C96",
   "status": "proved",
   "theorems": [
    "OpenMethod.Props.C96",
    "OpenMethod.Props.C96_same",
    "OpenMethod.Props.C96_errors",
    "OpenMethod.Props.C96_applicable",
    "OpenMethod.Props.C96_prefers"
   ],
   "note": "About a corrected version of select_dominant_overriders (Model/N2216.lean), not about the library, which violates C38. C96: never undefined. C96_same: as the library wherever that is defined. C96_errors: the same errors. C96_applicable, C96_prefers: what calls do, including where the library is undefined."
  },
  {
   "property": "C97",
   "status": "proved",
   "theorems": [
    "OpenMethod.Props.C97",
    "OpenMethod.Props.C97_right",
    "OpenMethod.Props.C97_library"
   ],
   "note": "About corrected versions, not about the library, which violates C38 and C39. C97_library: without corrections the model is that of the library, and the property is C38 and C39."
  },
  {
   "property": "C98",
   "status": "proved",
   "theorems": [
    "OpenMethod.Props.C98",
    "OpenMethod.Props.C98_ordinary",
    "OpenMethod.Props.C98_collision",
    "OpenMethod.Props.C98_reserved",
    "OpenMethod.Props.C98_trailing"
   ],
   "note": "One translation unit with all macros in one scope; names are lists of characters. Finding 41: names that end in an underscore make the macros declare reserved identifiers."
  },
  {
   "property": "C99",
   "status": "proved",
   "theorems": [
    "OpenMethod.Props.C99",
    "OpenMethod.Props.C99_detects",
    "OpenMethod.Props.C99_acquire",
    "OpenMethod.Props.C99_registered",
    "OpenMethod.Props.C99_library"
   ],
   "note": "About corrected versions of vptr_vector, not about the library, which violates C28. C99_library: without corrections the model is that of the library. The conditions on calls are those of C28_partial, without the condition on the policy."
  },
  {
   "property": "C100",
   "status": "proved",
   "theorems": [
    "OpenMethod.Props.C100",
    "OpenMethod.Props.C100_unchanged",
    "OpenMethod.Props.C100_same",
    "OpenMethod.Props.C100_library"
   ],
   "note": "About corrected versions of initialize, not about the library, which violates C32. C100_library: without corrections the model is that of the library. Failures of memory allocation (C84) are not considered."
  },
  {
   "property": "C101",
   "status": "proved",
   "theorems": [
    "OpenMethod.Props.C101",
    "OpenMethod.Props.C101_unchanged",
    "OpenMethod.Props.C101_each",
    "OpenMethod.Props.C101_strong",
    "OpenMethod.Props.C101_same",
    "OpenMethod.Props.C101_library"
   ],
   "note": "About corrected versions of initialize, not about the library, which violates C84. C101_library: without corrections the model is that of the library. The allocations are those of initFault (C84); that the corrected code makes the same ones is assumed."
  }
 ]
}
