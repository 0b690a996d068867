# Formal model of Boost.OpenMethod: design

Target: the headers in `/repo/include/boost/openmethod` (read as text, never built).
Prover: Lean 4.33.0 with Mathlib. Sources in `lean/Verif`, one Lake library `Verif`.

## 1. Trusted base

* The Lean kernel, and at most the three standard axioms `propext`, `Classical.choice`, `Quot.sound`.
  No axiom of our own, no `sorry`, no compiled evaluation. The audit is in section 6.
* The correspondence between the C++ text and the model. Each model definition cites the file and lines it
  transcribes and says what it simplifies. Nothing mechanical links both.
* C++ facts taken as preconditions: `std::type_index` identifies a class; inheritance is acyclic; an overrider has as
  many virtual parameters as its method (C60: enforced by the compiler, with the exceptions listed there); standard containers and algorithms do what
  the standard says (unspecified orders are universally quantified, see `Platform`).

## 2. What is modelled

| Module (`Verif/Model/…`) | Code | Content |
|---|---|---|
| `Basic` | preamble.hpp 76-283 | errors, undefined behaviour as a distinct outcome, result monad `Res` |
| `Input` | preamble.hpp 308-366, core.hpp 118-123, 346-379 | registration records (`class_info`, `method_info`, `overrider_info`) |
| `Platform` | standard library | what the standard leaves unspecified: iteration order of unordered sets, `std::sort` on ties |
| `Classes` | initialize.hpp 519-696 | `augment_classes`, `collect_transitive_bases`, `calculate_transitive_derived` |
| `Methods` | initialize.hpp 700-859 | `augment_methods` |
| `Slots` | initialize.hpp 62-80, 863-1007 | bit sets, `assign_slots`, `assign_tree_slots`, `assign_lattice_slots` |
| `Select` | initialize.hpp 1419-1506 | `is_more_specific`, `select_dominant_overriders`, with and without `n2216` |
| `Dispatch` | initialize.hpp 1011-1290 | groups, strides, `build_dispatch_table`, `next`, report |
| `Global` | initialize.hpp 1294-1415 | `write_global_data`: words, v-table pointers, slots and strides |
| `Call` | core.hpp 1970-2000, 2222-2233, 2453-2614 | `resolve*`, `next`, `has_next`, bad-call reporting |
| `Hash` | policies/fast_perfect_hash.hpp 129-262 | search, `hash`, `check` |
| `Vptr` | policies/vptr_vector.hpp 66-186, vptr_map.hpp 47-115 | both policies, direct and indirect |
| `Registry` | preamble.hpp 922-1070, initialize.hpp 447-477, 1612-1657, core.hpp 528-622 | life cycle: initialize (may fail part-way), finalize, call, `virtual_ptr` |
| `World` | static members of `registry` and of its policies | several registries sharing memory |
| `VirtualPtr` | core.hpp 528-622, 666-1786 | value semantics of plain and smart `virtual_ptr` |
| `Inplace` | inplace_vptr.hpp 27-273 | constructors and destructors of the mixins |
| `Policies` | preamble.hpp 808-862, 979-1006 | `with`, `without`, `policy` |
| `StaticList` | detail/static_list.hpp | intrusive list on an explicit heap |
| `Subobjects` | C++ language | base class subobjects, `static_cast` and `dynamic_cast` of references to them, `optimal_cast` (core.hpp 128-148) |
| `Thunk` | core.hpp 247-338, 1733-1768, 1868-1922, 2222-2233, 2432-2450, 2710-2728, interop/*.hpp | `peek`, casts of the arguments, thunks, calls and `next` until an overrider is entered |
| `UseClasses` | core.hpp 102-123, 343-417 | `inheritance_map` with its static assertion, the records made by `use_classes` |
| `Params` | core.hpp 153-189, 498-520, 1930-1968, 2007-2062, 2270-2280, 2616-2728, std_shared_ptr.hpp 34-50 | parameter types as terms, selection of partial specialisations, `validate_method_parameter`, `validate_overrider_parameter`, acceptance and effect of the casts for all types, the classes in the records |
| `Returns` | core.hpp 2246-2262, 2412-2417, 2710-2728, 2790-2791 | the implicit conversion of the result of an overrider to the return type of the method, as far as classes, pointers and references to them, smart pointers and `virtual_ptr`s are concerned; the classes in the records. Not represented: user-defined conversions, `nullptr`, conversions of other types |
| `Source` | core.hpp 343-398, 2270-2280, 2350, 2393-2424, 2733-2800 | a program as it is written: classes, `use_classes`, methods and overriders with parameter and return types; what the compiler accepts, and the content of the static objects. Records of objects that are not declared are filled with zeros; C63 only considers programs in which none are alive when `initialize` is called |
| `Bodies` | core.hpp 2222-2233, 2432-2450, 2568-2614, 2710-2728 | execution after `initialize`: bodies of functions and overriders, nested calls, `next`, `has_next`, exceptions, conversion of results. The code of the user is any function of what it receives, with a state of any type; the registry does not change while it runs; error handlers throw or abort and do nothing else |
| `Macros` | macros.hpp 15-23, 65-99, 125-130 | overload resolution among the templates that `BOOST_OPENMETHOD` defines, by which calls and overriders find their method. Name lookup is in `Lookup`. Not represented: braced lists as arguments |
| `MacroProgram` | macros.hpp 15-150 | a program in which overriders and calls give the names of methods; the compiler attaches the overriders to methods. Name lookup is in `Lookup`: here, each overrider and call has the list of methods found |
| `Ownership` | core.hpp 247-338, 1733-1768, 1868-1922, 2007-2017, 2432-2450, 2583-2614, 2710-2728, std_shared_ptr.hpp 83-127, 172-185, std_unique_ptr.hpp 41-56, boost_intrusive_ptr.hpp 46-58, 95-115 | reference counts: which smart pointers are copied, moved and destroyed when methods are called, overriders return or throw, and casts fail. Which overrider runs and which casts fail is arbitrary. Not represented: weak pointers, custom deleters, owners inside of objects, functions that change the variables of their callers |
| `Output` | detail/ostdstream.hpp 22-100, initialize.hpp 232-239, 330-369 | output of strings, numbers, addresses and sets of bits in messages and traces; `std::to_chars` as in the standard |
| `Conversions` | core.hpp 425-470, 721-1075, 1225-1698 | constructors and assignment operators of `virtual_ptr` with their constraints, template argument deduction, overload resolution |
| `Deduction` | core.hpp 583-622, 683-687, 1173-1183, 1788-1806; interop: `make_*_virtual` | class template argument deduction for `virtual_ptr`, types in `final_virtual_ptr` |
| `Statements` | composition of `Conversions`, `Deduction` and `VirtualPtr` | an accepted statement is turned into operations on virtual pointers: which overload is called, which temporaries are made |
| `Casts` | core.hpp 128-148, 1104-1123, 1724-1768, std_shared_ptr.hpp 83-127, std_unique_ptr.hpp 41-56, boost_intrusive_ptr.hpp 46-58 | which casts of virtual pointers are accepted, their types, whether they are `static_cast` or `dynamic_cast`; programs of statements and casts |
| `Compare` | core.hpp 1080-1103, 1703-1726, 1810-1845 | `==` and `!=` of virtual pointers: which are accepted, and their result, for pointers to parts of objects. Comparisons of pointers are those of C++: both are converted to the base |
| `Bare` | policies/static_rtti.hpp, initialize.hpp 1410-1412, 1646-1657, core.hpp 528-537, 583-622 | registries without a vptr policy: `initialize`, `finalize`, calls with `virtual_ptr`s and with objects that embed their v-table pointers |
| `Odr` | preamble.hpp 99-114, default_registry.hpp 35-63, initialize.hpp 1613-1622 | which definitions of `default_registry` are in the modules that are loaded; `odr_check::count` as its variables are initialized. That two definitions with the same name are undefined behaviour in C++ is ignored: each unit instantiates its `inc`, as the library expects |
| `Trace` | initialize.hpp 200-388, 447-516, 535-1543, fast_perfect_hash.hpp 166-247, preamble.hpp 413-453 | `initialize` again, with the statements that write the trace; output is a list of tokens (text, numbers, names of types, methods and overriders). Proved equal to the model without trace (`Proof/Trace*.lean`). `print` of addresses and bit sets: see `Output` |
| `Cost` | core.hpp 528-554, 2432-2559; preamble.hpp 1060-1070; policies/vptr_vector.hpp 135-170, vptr_map.hpp 81-105, fast_perfect_hash.hpp 129-138, 250-262 | the functions of `Call`, `Vptr` and `Hash` that dispatch a call, with the list of the variables they read; `dynamic_type` and a search in a map count as one read each; parameters and local variables do not count |
| `Memory` | initialize.hpp 447-477, 1294-1415; policies/fast_perfect_hash.hpp 166-247, vptr_vector.hpp 66-115, vptr_map.hpp 46-64 | `initialize` when an allocation throws `std::bad_alloc`: the stores in global variables, in order, up to the failure; the new dispatch data is destroyed. The capacity of a vector is taken to be its size (more failures than in reality). Allocations made by registration, error handlers and overriders are not considered |
| `Threads` | core.hpp 528-554, 2208-2233, 2432-2578; initialize.hpp 460-477, 1294-1415, 1611-1657 | calls, construction of `virtual_ptr`s, `next`, `has_next`, `initialize` and `finalize` as programs that make one access to memory after the other; threads as strategies that choose the next operation from the results of the previous ones; any interleaving. Memory is sequentially consistent, which is what C++ guarantees for programs without data races; data races are detected. `initialize` and `finalize` read and write the variables of the vptr policy in one step. Registration, the error handler and synchronisation by the user are not represented |
| `Sizes` | initialize.hpp 1064-1131, 1285-1306; core.hpp 2506-2559 | strides, counters, sizes and displacements computed modulo the number of values of `std::size_t`; a displacement of the pointer into a dispatch table that leaves the vector is undefined behaviour. Slots are not computed modulo anything; they are less than the number of virtual parameters (`C87_stored`) |
| `Messages` | preamble.hpp 88-93, 124-127, 246-263, 590-600, 1072-1092; fast_perfect_hash.hpp 264-268; std_rtti.hpp 68-72; default_error_handler.hpp 106-117; throw_error_handler.hpp 30-43 | the texts that describe errors, written to the output policy or to the string of an exception. The demangled names are a function of the type id; the format of addresses in `std::ostringstream` is that of the implementation |
| `Corrected` | none | not code of the library: `build_dispatch_table` (initialize.hpp 1135-1290) as it would be if overriders were compared with all candidates. Used by C89 only |
| `Loading` | the lists of registrars and the error handler as shared variables: core.hpp 352-374, 2393-2430, 2734-2782; detail/static_list.hpp; policies/default_error_handler.hpp 90-107, 127-131 | the lists and the records of a registry are one variable, read then written by a registrar, read once by `initialize`; no `deferred_static_rtti` |
| `Locks` | no code of the library: threads as in `Loading`, that use one `std::shared_mutex` for each registry | the lock is acquired together with the first access of an operation, and released together with its end; no order between waiting threads |
| `ErrorTypes` | policies/default_error_handler.hpp 40-88 (`error_variant`, conversion of errors to it), policies/throw_error_handler.hpp 33-47 (class of the exceptions), the classes of errors | public inheritance; no conversions but to bases; the rules of C++ for `std::variant`, overload resolution and handlers of exceptions are part of the model |
| `N2216` | not the library: initialize.hpp 1419-1482 with one more `break` | the correction of finding 5; everything else as in `Select`, `Dispatch`, `Call` |
| `N2216All` | not the library: option `n2216` with any of the corrections of C89 and C96 | when overriders are compared with all candidates, none may be left, for `next` too: the call is then not implemented |
| `Names` | macros.hpp:45-59, 67-85, 104-150: the names pasted and declared by the macros | one translation unit and one scope; a name is a list of characters and not itself a macro; `__COUNTER__` is unbounded; what is declared inside classes is not modelled |
| `Detect` | not the library: `vptr_vector` with any of two corrections | `dynamic_vptr` reports null elements; `initialize` clears the vector first |
| `Rollback` | not the library: `initialize` with any of two corrections | the search for hash factors is made before the stores of `write_global_data`; it assigns the factors only when it succeeds |
| `Guarantee` | not the library: `initialize` with any of three corrections, when an allocation fails | the allocations of the vptr policies precede the stores; the search for hash factors works on local variables; the names for the trace are obtained before the stores. That the corrected code makes the same allocations is assumed |
| `HashWord` | policies/fast_perfect_hash.hpp 129-247, 250-262 | `Hash` with the size of words as a parameter |
| `Lookup` | macros.hpp 47-150 | the macros in namespaces: what they declare in the current namespace; unqualified lookup with `using` directives and declarations, argument dependent lookup, clashes of containers. Not represented: inline namespaces, `using` declarations of containers, entities of the same names that the macros do not introduce |
| `Options` | initialize.hpp 394-443, 503-516, 1611-1629, fast_perfect_hash.hpp 166-175 | types deduced for the arguments of `initialize`, `has_option`, `std::get<trace>` |
| `InplaceCopy` | inplace_vptr.hpp 120-157, 194-273, the special member functions that they do not declare | copy constructors and copy assignments of classes with the mixins, implicit or user-written; user-written copy constructors and assignments that do not copy the bases are not considered |
| `Registrars` | core.hpp 343-398, 2393-2430, 2733-2800, preamble.hpp 308-372, initialize.hpp 545-548, 711-714, 772-776 | construction and destruction of `use_classes`, `method` and `override` objects, deferred type ids, what `initialize` reads |
| `ErrorHandler` | policies/default_error_handler.hpp 86-118, throw_error_handler.hpp 19-45, and every site that reports an error | handlers, exceptions, abort; each function of the other modules that can report an error is transcribed again with effects and proved equal (`Proof/ErrorHandler.lean`, theorems `…E_eq`) |

Specifications are apart from the model: `Spec` (inheritance as closure of the registered pairs, applicability, dominance, expected
outcome of a call), `SpecCall`, `SpecAccept`, `SpecChange`, `SpecTables`, `SpecNext`, `SpecList`, `SpecRegistry`, `SpecWorld`, `SpecPtr`, `SpecInplace`,
`SpecError`, `SpecCost`, `SpecRegistrars`, `SpecThunk`, `SpecCpp`, `SpecParams`, `SpecForms`, `SpecSource`, `SpecBodies`, `SpecMacros`, `SpecMacroProgram`, `SpecOwnership`, `SpecOutput`, `SpecConversions`, `SpecDeduction`, `SpecStatements`, `SpecCasts`, `SpecInplaceCopy`, `SpecCompare`, `SpecBare`, `SpecOdr`, `SpecTrace`, `SpecOptions`, `SpecLookup`, `SpecThreads`, `SpecMessages`. `SpecError` uses the model of the other modules to say which error is detected: its subject is what happens afterwards.
Theorems named in the manifest are in `Props`, helper lemmas in `Proof`, sample programs in `Examples`.

Undefined behaviour (null dereference, out-of-bounds access, use of freed tables, reading a union member that was not
written) is an explicit outcome `ub`; theorems about safety say it is never reached.

Unspecified behaviour is a parameter: `Platform` holds the iteration order of each unordered set and the result of
`std::sort`; theorems quantify over all platforms.

## 3. What is not modelled

Template-level checks other than those of `use_classes`, of parameter types, and of the constructors, assignments and casts of `virtual_ptr` (the argument `registry` is not modelled), the layout of traces, `std_rtti`/`static_rtti` internals (a type id and a type index are abstract values), threads that synchronise in other ways than with the locks of C93, threads with `deferred_static_rtti` or with error handlers that use the library, memory exhaustion outside of `initialize`, 32-bit targets (except the hash, see `HashWord`), numeric overflow of sizes outside of `Sizes` (sizes are natural numbers).

## 4. Properties: plan

Status and theorem names are in `MANIFEST.json`; this table says what is modelled and how it is proved.

| Id | Plan |
|---|---|
| C01 | End-to-end: compile + install + resolve on word memory, compared to `Spec`; arity 1. Needs C10, C11. |
| C02 | Same for any arity. Full rule holds when the choice is settled by direct comparisons (`Settled`; in particular when dominance is transitive on the applicable set: arity 1, or comparable parameter classes). `C02_exact`: this condition is necessary for the rule to hold in every order of overriders, when some overrider is undominated. Negation witnessed under multiple inheritance; `C02_undominated_partial` in any case. |
| C03 | Selection never empties a non-empty candidate list (induction on the elimination loop). No hypothesis on dominance. |
| C04 | As C02. |
| C05 | Model of `resolve_multi_next` with parameter kinds. Negation: a non-virtual parameter between virtual ones makes later ones ignored. `_partial` for contiguous virtual parameters; what calls do instead when all the virtual parameters after a gap are ignored (`Leading`), which covers all methods with two virtual parameters. `C05_last`: if the virtual parameters are not contiguous, the last virtual argument is ignored by all calls. `C05_exact`: so the condition is necessary; a program is constructed for each list of parameters. `C05_corrected`: if only virtual parameters were counted, no condition would be needed. |
| C06 | Negation: incomplete transitive bases make two methods share a slot. `_partial`: holds when collection is complete, with sufficient conditions. |
| C07 | From C02 (order-free specification) where it applies; negation by a non-transitive example. |
| C08 | Invariant of the elimination loop using asymmetry only. |
| C09 | Cell contents are applicable to every tuple mapped to the cell. |
| C10 | Invariants of tree and lattice allocation. |
| C11, C12 | Word memory with bounds and tags; layout lemmas. |
| C13-C16 | `next` as last write over cells; constant over the cells that select an overrider if the applicable overriders accept its classes (`Covered`); negation under multiple inheritance. For the overriders reached by `next`, spec `NextExpected` (the best among the applicable overriders that are less specific) and condition `Nested`; `PlainMethod` (one virtual parameter, or no unrelated bases) implies `Nested`, which implies `Covered`. |
| C17, C18 | Counters as sums over cells; every cell is inhabited by a tuple. |
| C19, C20 | Error characterisation of `augment_*`; negation for the swapped fields of `missing_base`. |
| C21 | `transitive_derived` equals the closure. `transitive_bases` is characterised exactly by an invariant over the records (depth-first search misses nothing); the result, `FoundIn`, is used in the hypotheses `Separated`, `ArgsSafe` and `OrderSafe`. |
| C22 | Via C26, C27. |
| C23-C25 | Search loop for any multiplier stream; negation for `buckets`. |
| C26-C28 | Vector and map models with arbitrary previous contents; negation for C28 (gap ids without hash). `C28_exact`: the exact set of ids that `vptr_vector` detects without a hash, when its vector was empty before. `C28_stale`: otherwise, by an invariant of all histories (v-table pointers that remain are to earlier dispatch data), no overrider is entered, if v-table pointers are direct. `C28_stale_indirect`: the three possible outcomes with `indirect_vptr`. `C28_unchecked`: what happens instead without runtime_checks. |
| C29 | Heap refinement to `List`. |
| C30-C33 | State machine over arbitrary histories, generations of tables to detect use after free. Negation for C32. `C30_unchecked`: without runtime_checks, the calls that C30 is about are undefined behaviour. `C33_follows`, `C33_orphan`: the exact fate of indirect `virtual_ptr`s, by the invariant of `C28_stale`. |
| C34-C36 | State machine of `virtual_ptr` operations; negations for null copy-assignment, moving cast, several type ids. |
| C37 | Construction/destruction as event sequences over class trees; negation for virtual diamonds. |
| C38, C39 | `n2216` pass with null dereference as `ub`; negation with three candidates; `_partial`. |
| C40 | Lists of policies; negation for re-adding a present policy. |
| C41 | Negation when there are non-virtual parameters; `_partial` otherwise. |
| C42 | Quantification over `Platform`. |
| C43, C44 | Handler state machine. |
| C45 | Product of registry states. |
| C46-C48 | Corollaries of the end-to-end theorem. |
| C49 | From C10 layout lemmas; negation that the shifted pointer stays in the buffer. |
| C50 | Negation: the stored address is that of a temporary. |
| C51 | Invariant over registry histories: policies the registry does not have store nothing; then `finalize` empties the rest. |
| C52 | Event log of the handler state machine. |
| C53 | Bounds on the number of buckets of the first pass, lifted through the search to the registry. |
| C54 | Machine on the intrusive lists and the records, refined to lists of live objects. Taken for granted: an overrider may be added to a method whose constructor did not run yet (the code relies on zero-initialised storage, which the standard does not fully bless), and a method is not unmapped before its overriders. |
| C55 | Histories with the events of dead objects removed lead to the same live objects; then C54 and C31. |
| C56 | Subobjects as paths, shown equal to an inductive definition. Without repeated inheritance, a subobject of the overrider's class exists and is unique, so that each kind of cast finds it; the overrider selected is applicable (C09, C39), those reached by `next` too (C14). The C++ hierarchy is a parameter, related to the records by what `use_classes` checks. |
| C57 | `is_base_of` and `is_convertible` as existence and uniqueness of a subobject, hence equal to reachability in the hierarchy. The records are any permutation of those of the lists, since the order of construction is unspecified. |
| C58 | C57, C02 and the proof of C56 composed; the documented rule is restated for an arbitrary inheritance relation (`ExpectedBy`) and applied to that of the C++ classes, without reference to the records. That the arguments are acceptable follows from the fact that they are references to subobjects of the parameter classes. |
| C59 | Types are terms; a partial specialisation is a list of patterns and a condition; matching is deduction by pattern matching, and the order between specialisations is computed by matching the patterns against each other, as in the standard. `validate_overrider_parameter` is the list of its nine specialisations, and the lemmas about it compute the selection for every pair of types. The casts are modelled by whether the compiler accepts them. The specification is a direct transcription of the documented requirements. |
| C60 | Induction on the list of parameters, with C59 for each. Discharges, for methods and overriders accepted by the compiler, the hypothesis `MethodInfo.WF` of the other properties. |
| C61 | By cases on the type. |
| C62 | As C59, without the hypothesis that classes are polymorphic; the language rule for `static_cast` is that of `Subobjects`. `C62_exact`: which overriders are accepted for virtual parameters of the same form, in terms of inheritance alone |
| C63 | Composition of C54 (registrars), C57/C58 (classes and calls), C59/C60 (types) and C20 (acceptance): from the declarations of a program, through any history of constructors and destructors, to `initialize` and calls. The expected outcome is stated on the declared parameter types and the C++ classes only (`SpecSource`). The hypotheses that remain (`Source.Ok`) are those the library does not check, plus facts guaranteed by the language. Refuted in general by the same programs as C58. |
| C64 | `Returns`: which implicit conversions `return Overrider(…)` accepts, by cases on the types; spec of covariant types in `SpecReturns`. The documentation requires the same or a covariant type; the library relies on the conversion, so the full statement is refuted by a method returning `const Animal&` and an overrider returning `Dog`. Proved: documented types are accepted, types of the same form are accepted only if documented, the classes of any two accepted types are related, the record of a documented overrider names its class, and the caller receives the same object. |
| C65 | `Bodies`: an interpreter with a bound on nested calls. `SpecBodies`: a big-step semantics on the declarations (no type ids, records, tables nor thunks), and a contract that the code of the user respects. Proved by simulation in both directions (`Proof/Bodies`), from what C63, C13, C49 and C64 say of one call (`Proof/Execute`). The full statement is refuted as C63; proved under its conditions, and for `next` when the overriders of the method are nested |
| C66 | `Macros`: candidates are the methods that accept the arguments (implicit conversions of `Returns`); all templates have the same parameters, so there must be one candidate. `SpecMacros`: a rule of overload resolution for ordinary functions, exact types are better than base classes. Refuted by overloads; proved for unique candidates, from C59 and C64 |
| C67 | `Ownership`: code with variables that own objects or refer to them, calls through the call operator, the thunk and the overrider. `SpecOwnership`: typing rules (a `std::unique_ptr` is only moved, a variable that is moved is not used otherwise in the same call). Invariant: counts are numbers of owners, references are to objects that a calling function owns. Induction on typed code |
| C68 | `Output`: strings as lists of characters. `SpecOutput`: value of a numeral. Induction on the digits; bound on their number from the size of the word |
| C69 | `Conversions`: the overload sets, which overload is viable and which is best. `SpecConversions`: the documented requirements as an inductive relation, read in the direction that makes sense. By cases on the kind of argument; which overload is best is computed. Refuted by pointers to virtual pointers of non-polymorphic classes and by `const` rvalues; exact otherwise (`C69_exact_partial`). `C69_returned`: agreement with the summary in `Returns` |
| C70 | `Deduction`: template arguments with reference collapsing; which private constructor is selected. `SpecDeduction`: the virtual pointer that corresponds to an argument. By cases. Refuted for smart pointers that are lvalues (finding 29); proved for objects and rvalues, and, for deduction, for arguments that are not `const` smart pointers |
| C71 | `Statements`: the overload that `Conversions` selects is run as an operation of `VirtualPtr` (C35), with a temporary if a user-defined conversion is needed. `SpecStatements`: what the target designates. Proved by computing the operations of each accepted statement; the states are those reached by any sequence of statements (`Reach`). Refuted by null pointers; proved without them |
| C72 | `Casts`: the condition of `cast` and that of the cast it makes; the effect is that of `VirtualPtr` (C35), with the class of the object instead of an arbitrary outcome. `SpecCasts`: the documented and permitted casts in terms of inheritance; the effect. `C72_accepts` by `optimalOk_iff` and `dynamicOk_iff` (C62); `C72_agrees` compares the casts with those of subobjects (`Subobjects`, C56); the states are those reached by any sequence of statements and casts. Refuted by null pointers and pointers that have been moved from (findings 13, 24); proved without the former, and with a weaker invariant (`Sound`) for the latter |
| C73 | `InplaceCopy`: the steps of copy constructors and assignments as in C++, for every subobject. `SpecInplaceCopy`: the class that the v-table pointers of a subobject designate (as in C37). Exact conditions proved; refuted by slicing, assignment through a base, user-written copy constructors. |
| C74 | `MacroProgram`: the elaboration of a program written with macros to one of `Source`. `SpecMacroProgram`: what the result must be, with the rule of overload resolution of C66. Composed with C63 and C65. The macros make the condition of `Source.Ok` on parameters marked with `virtual_` unnecessary, as they only accept derived classes; rvalue references to other types than classes are excluded (finding 31). |
| C75 | `Params.strayCast`: the casts of `virtual_traits`, for all types of overrider parameters, and what they hand to the overrider (`Handed`). `SpecForms`: the pairs of types that go astray. Proved by going through the forms, with the conditions of C62 for casts |
| C76 | `Compare` over the subobjects of `Subobjects`. `SpecCompare`: the parts of a part, step by step to direct bases; comparable operands in terms of unambiguous bases. Proved by relating the steps to the paths of `sub` (`contains_iff`). Refuted with repeated inheritance; proved in the form of `C76_exact`, which says which part is compared |
| C77 | `Bare`, a variant of `Registry` without the data of a vptr policy. Proved by a simulation: each operation does the same to it and to the registry with `vptr_map` (`initBare_mapped`); calls then go back to C31 |
| C78 | `Odr`, for sequences of loads and unloads; unloading may have no effect. Proved by invariants on `count`: at least the number of definitions present; 0 or 1 as long as there was no conflict. Refuted after unloading, and for `indirect_registry` |
| C79 | `Trace`: a writer monad over the model of `initialize`, with the option absent, off or on. Each traced function is proved to have the result of the function of the model; the words of the trace follow by induction on the same functions. Refuted for registries with a hash function, where one line does not depend on `trace::on` |
| C80 | `Options`: arguments with value category and constness, deduction of `Options&&...`. Refuted for lvalues and constants, exact characterisation |
| C81 | `Lookup`: methods, overriders and calls in namespaces. Name lookup is specified by a relation (visible declarations, associated namespaces). Exact characterisation; refuted for methods in unrelated namespaces, and by `using` directives |
| C82 | `HashWord`: the search and the checks of C23, C24 and C53 with words of any size, 32 bits or more; with 64 bits, it is the model of `Hash` |
| C83 | `Cost`: the functions that dispatch a call also return the list of the variables they read. Erasing the list gives the functions of `Call` (`C83_same`); its length is given by `callCost`, which only looks at the policies and at the kinds of the virtual arguments |
| C84 | `Memory`: `initFault` is `initialize` with one allocation that fails. Its stores, all together, are those of `initRegistry` (`stores_all`). `History` and `Steps` include these failures, so that the properties of all states that can be reached (C30, C33, C51, C83) also hold after them. Refuted in general; proved: what is kept, recovery, and that nothing is visible for unchanged registrations, direct `virtual_ptr`s and checked hash functions |
| C85 | `Threads`: the programs of the operations, executed alone, do what the functions of the other modules do (`Op.run_exec`), and their reads are those of `Cost` (`call_cost`). Invariant of any interleaving: what a thread has still to do, in the current memory, has the result it has alone. Proved for threads that do not use a registry while another one initializes or finalizes it; without this, there are data races (`C85_races`) and wrong calls (`C85_mixed`, `C85_released`) |
| C86 | `Classes`, `Call`. Records sorted by the number of bases of their classes are in a supported order (`C86`); records repeated after all others are found with all bases (`C86_twice`). Conditions and outcomes are stated in terms of the original program. `installTwice` is `install` with one loop of `augment_classes` executed twice; it is a correction, not code of the library |
| C87 | `Sizes`: the computations of `compile`, `write_global_data` and of calls modulo `B`, equal to those of the other modules if the dispatch data has less than `B` words. Strides and indexes are at most the number of cells, because no dimension is empty. For slots: invariants of the two allocations (`SlotBound`). For calls: the pointer only moves forward, so that it is always in the vector if it is in the end |
| C88 | `Messages`: the text of each error is given by `Description`. Texts are told apart by their first words, and the names in them by the characters between them (`PlainNames`: names contain none of these; the default names never do); sequences of errors by the line ends. Negation of the full statement: bad calls |
| C89 | `Corrected`, with `augmentClassesTwice` of C86 and `callMethodFixed` of C05. A model with three switches; with all of them off it is the library (`C89_library`). `Suffices` is the full statement of C01, C02 and C05, for the model with given switches; it holds exactly when all are on: sufficiency by the invariants of slots and v-tables, which do not depend on the cells (`CompiledBase`), necessity by the counterexamples of C01, C02 and C05 |
| C90 | No new model. `SpecFit`: `FitsNext`, a function is right as `next` of an overrider for all arguments with which it is called; `UniformAt`, these calls would all do the same thing without the overrider. From the characterisation of the stored `next` used for C13 (`next_cases`): it is right for some of these arguments, so it is right for all of them if any function is. `nextProg`, the counterexample of C13, shows that there may be none. `Covered` implies `UniformAt`, and an example shows that it is stronger. `Proof/Corrected`: the same for the corrected choice of C89, without the condition on transitivity |
| C91 | Threads as for C85, with the lists of the registrars (C54) and the error handler as further shared variables. The state of a registry is split into three groups of variables; `LSeparate`: what a thread changes is not used by another one. Invariant: each thread has reached its configuration in a memory that only it changed, equal to the real one on the groups it uses. Without the condition: two threads that load libraries lose a class (`C91_lost`), races with `initialize` and with `set` of the error handler |
| C92 | The model of C56, whose `castArg` has a case for null arguments. `SpecNull`: which kinds of pointers can be converted without an object, by induction on the list of parameters. `Static` is stated with subobjects |
| C93 | Threads of C91 with locks. `OneByOne`: operations one after the other. Invariant: the results are those of some order of the operations that have ended; a registry whose lock is not held exclusively is as after them; a thread in an operation holds the lock, and what remains of its program, executed in the present memory, gives what the operation gives after the others. Shared operations change nothing, so that they can overlap |
| C94 | The list of alternatives is computed as in the code, for any list of policies and any class hierarchy; the choice by the converting constructor of `std::variant` is overload resolution between the unambiguous bases. `Closest` says what is chosen without it (`C94_exact`). Composed with the lists of policies of C40 |
| C95 | The class of the exception is added to the hierarchy; it can be caught as its unambiguous bases. Subobjects of the exception in terms of those of the error and of `std::runtime_error` |
| C96 | The functions from `select_dominant_overriders` to `initialize` again, with a `break` after `candidates[i] = nullptr` in the second loop. Function by function, the result is that of the library wherever that is defined (`C96_same`); by induction on the loops, it is always defined (`C96`). C39 follows, under the condition of `C39_founded_partial`, also where the library is undefined (`C96_prefers`) |
| C97 | As C89, for option `n2216`: four flags for four local corrections. `C97_library`: without corrections, the library, and the property is C38 and C39. Sufficiency from the loop lemmas of C96 and the choice of C89; necessity from a concrete program for each correction, whatever the others are |
| C98 | Each macro maps to its list of declarations; the last character tells the kinds of generated names apart, decimal notation is injective, and the counter grows. `C98`: exact condition for collisions; `C98_ordinary`: rule for users; `C98_collision`: the rule is needed; `C98_reserved`: which names are reserved by C++ |
| C99 | As C89, for C28: two flags for two local corrections of `vptr_vector`. `C99_library`: without them, the library. `C99_detects`: with both, from any previous state, for all policies, by the lemmas of C28 and one about elements where nothing is stored. Necessity: one concrete history for each correction. `C99_acquire`: exact, for objects; `C99_registered`: nothing changes for registered classes |
| C100 | As C89, for C32: two flags for two corrections of `initialize`. `C100_library`: without them, the library. `C100_same`: whatever they are, the same successes (with the same state) and the same errors. `C100_unchanged`: with both, a failure changes nothing. Necessity: the failing search of `C32_refuted`, with a `virtual_ptr` for one correction and an object for the other, for which the factors that the failed search leaves behind are computed |
| C101 | As C100, for C84: three flags. `C101_library`: without them, the library. `C101_same`: whatever they are, the same allocations can fail. `C101_unchanged`: with the three, only the identities of released dispatch data are used up. `C101_each`: what each one does, whatever the others. `C101_strong`: with C100, the strong exception guarantee. Necessity: one failure for each correction, whatever the other two. That the corrected `initialize` leaves the old state is built into the model of the corrections; the content is that each one is needed, that no other one is, and that calls see no difference |

## 5. Findings (code and documentation disagree)

For each, the negation of the full property is proved with a concrete program (`…_refuted`), and what does hold is proved in `…_partial`.
Nothing was run: these are statements about the model, which follows the text of the code.

1. **Slots conflict when bases are registered late.** `collect_transitive_bases` uses the bases of the base *as known so far*. If `C : B` is
   registered before `B : A`, `C.transitive_bases` lacks `A` (`C21_bases_refuted`). `assign_lattice_slots` reserves slots through that list, so that two
   methods can share a slot of a class: one is called instead of the other, or a table address is used as a function.
   `C01, C03, C06, C08, C09, C10, C11, C17, C42, C47, C48` refuted; proved for calls whose arguments are `ArgsSafe` (`C10`: for `Separated` classes). That condition speaks of the records, their order, and the
   classes of virtual parameters only; it is about pairs of a class of a parameter of the called method and that of another parameter that accepts the same argument, so that conflicts elsewhere do not matter. `OrderSafe`
   classes meet it in all calls; classes are so (`C21_simple`) if the list is complete (`AllFound`, see `C21_allFound`), in particular if each record names all the bases or if bases are registered first; with single
   inheritance registered from the most derived class to the root (`OneFound`); and in any order for a class accepted by virtual parameters of one class only (`OneParam`), as when all methods are
   declared for the root of a hierarchy.
   Remedies (C86): registering bases first, or everything twice; executing the loop that collects the bases twice in `augment_classes` makes C01 true for all programs
   (`C86_corrected`).
2. **The overrider picked is not always the one documented.** Dominance is not transitive with multiple inheritance and at least two virtual
   parameters, and `select_dominant_overriders` eliminates candidates pairwise, in registration order: `C02, C04, C07, C39` refuted. The overrider picked is always
   applicable and never dominated by a surviving one (`C08_partial`, `C09_partial`). The rule holds if there is an overrider that dominates all others, or
   two undominated ones, or none that is applicable (`Settled`), and only then, unless the order of overriders is taken into account (`C02_exact`) or all overriders are
   dominated. In the last case the call should be ambiguous, but may run an overrider (`C04_refuted_cycle`).
3. **`next` is stored per overrider, not per call.** With multiple inheritance, different tuples selecting one overrider have different next ones:
   `C13`, `C14` refuted; with three virtual parameters the chain can be cyclic (`C15_refuted`). An overrider that is never selected keeps a null `next`,
   for which `has_next()` is true (`C16_unset`).
4. **Non-virtual parameter between virtual ones.** `resolve_multi_next` increments `VirtualArg` for non-virtual parameters too, so that a later virtual
   argument is ignored (`C05_refuted`, `C05_ignored_partial`) or uses the slot of another, even outside its v-table (`C05_refuted_read`). Whatever the program, the last virtual argument is then ignored (`C05_last`), so that the library is right exactly for contiguous virtual parameters (`C05_exact`); counting only virtual parameters would be enough (`C05_corrected`).
5. **`n2216` dereferences null** with three candidates, when `candidates[i]` is cleared in the inner loop, which goes on (`C38_refuted`). One more `break` is enough, and changes nothing else (C96). With the three corrections of C89, the option then always chooses as documented (C97).
6. **`missing_base` has its fields exchanged** (`C20_refuted`).
7. **`bad_call` counts all the parameters**, not only the virtual ones, in `arity` and `types` (`C41_refuted`, `C41_actual`).
8. **`fast_perfect_hash`.** `search_error.buckets` is twice the number used (`C25_refuted`); a class with many ids makes the search fail whatever the
   random numbers (`C25_fails`); the id `UINTPTR_MAX` is reserved without being checked.
9. **`vptr_vector` without hash** does not detect unregistered classes whose id is below the largest one registered (`C28_refuted`). A test for null elements is not enough: `resize` keeps the elements stored by a previous `initialize`, so that classes that have been unregistered since, by unloading a library, have dangling v-table pointers. The vector must be cleared as well, and the two corrections together are enough (C99).
10. **A failed search for hash factors leaves dangling `static_vptr`s**: they are written before `vptr::initialize` runs, and the new data is destroyed
    when the error handler throws (`C32_refuted`). `finalize` leaves them dangling too. It is not enough to make the search before the stores: a failed search leaves other hash factors behind, and objects are then looked up at other indexes, without a check if there are no runtime_checks. With local variables for the search as well, a failed `initialize` changes nothing (C100).
11. **Only the first record of a class has its `static_vptr` written.** In a module with its own copy, `final_virtual_ptr` and unloading lead to stale pointers
    (`C33_refuted`, `C34_refuted`).
12. **`final_virtual_ptr` compares type ids**, not type indices (`C36_refuted`).
13. **`virtual_ptr`** (`C35_…_refuted`): constructing or assigning from a null plain pointer; `operator=` from a null smart pointer; `cast() &&` leaves the v-table
    pointer in the source; a failed dynamic cast keeps it with a null object; an assignment that throws leaves the new object with the old v-table pointer;
    `final_virtual_ptr` of a null smart pointer.
14. **`inplace_vptr`.** In a diamond with a virtual root, one of the two destructors runs with the v-table pointer of the root (`C37_refuted`). With
    `indirect_vptr`, a `virtual_ptr` created from such an object holds the address of a temporary (`C50_never`, `C50_refuted`).
15. **`registry::with<P>`** when `P` is already there appends it again (`C40_refuted`).
16. **An empty `std::function`** given to `set` makes errors throw `std::bad_function_call` (`Throws.empty` in `SpecError`, covered by `C43`).
17. **Repeated inheritance is not always detected.** It is documented as not supported, and `is_unambiguous_accessible_base_of` rejects it for classes named in
    the same `use_classes`. It is accepted if they are named in several lists. The overrider selected may then be for another subobject: `static_cast` has undefined
    behaviour, or `dynamic_cast` throws or gives the overrider a null pointer (`C56_refuted`, `repeated_ub`, `repeated_fails`).
18. **Consequence of 3:** `next` can enter a thunk whose cast fails (`next_badCast`).
19. **A `const virtual_ptr<T>&` parameter cannot be overridden with the same type.** The partial specialisations of `validate_overrider_parameter` for `<T, T>` and for two
    `const virtual_ptr&` both match and neither is more specialised (`C59_ambiguous`). By value, a third specialisation settles it. The same for `virtual_ptr&&`.
20. **Non-virtual parameters of rvalue reference type cannot be used**: `parameter_traits::cast` returns its parameter, an lvalue, as an rvalue reference (`C59_rvalue`), which is an error before C++23.
21. **Overriders are not checked against `virtual_<T>`.** Any other class is accepted (`C59_refuted`); the cast is then a `dynamic_cast` that fails whenever the overrider is called.
22. **Registry mismatch is not detected for `const virtual_ptr&`**, and no overrider is accepted for such a method (`C61_refuted`). `std::shared_ptr<T>&` is rejected as a *non-virtual* parameter: the specialisation
    in std_shared_ptr.hpp is not for `virtual_<std::shared_ptr<T>&>` (`C61_refuted`).
23. **`virtual_ptr<T>&` is counted as virtual** but its class is taken to be `virtual_ptr<T>` itself, and overriders have a zero type id in its place (`C60_refuted`). No such class is registered.
24. **`std::unique_ptr` and `const std::shared_ptr&` always use `dynamic_cast`**: `requires_dynamic_cast` is applied to the smart pointer instead of its element (std_unique_ptr.hpp 43, std_shared_ptr.hpp 177). Classes without
    virtual functions cannot be cast, although `make_unique_virtual` is documented to support them (`C62_refuted`).
25. **Return types are not checked**: the documentation requires the same type or a covariant one; the thunk accepts any implicit conversion. An overrider that returns a `Dog` can be added to a method that returns
    `const Animal&`; the caller receives a dangling reference (`C64_refuted`). For such an overrider, and for one that returns `std::shared_ptr<Dog>&` when the method returns `std::shared_ptr<Animal>`, the record does
    not name `Dog`: if `Animal` is registered, `initialize` reports `void` or `std::shared_ptr<Dog>` as a missing class.
26. **`next` after `next`.** Even if all applicable overriders accept the classes of the overrider that a call runs (`Covered`, which makes its own `next` right), an overrider reached by `next` may have
    kept the `next` of other arguments: it reports that there is no overrider although a less specific one is applicable (`C13_next_refuted`).
27. **Methods declared with the macro are not ordinary functions for overload resolution.** If two methods of a name accept the arguments, for instance `f(virtual_ptr<Animal>)` and `f(virtual_ptr<Dog>)` called with a
    `virtual_ptr<Dog>`, the call is ambiguous although the second is an exact match; an overrider of the second with this parameter is rejected, because no method is found (`C66_overloads`).
    Conversely, the macro rejects the unrelated classes of finding 21, since the method could not be called with them (`documented_of_macro`).

28. **The constraints of the constructors of plain virtual pointers.** (a) The constructor and assignment from a pointer require that the class of the `virtual_ptr` is polymorphic (core.hpp 812-817, 974-979); documented,
    and required by the constructor from a reference (core.hpp 762-767), is that the class of the object is. So, for a polymorphic `Dog` with a base `Animal` that is not polymorphic, `virtual_ptr<Animal> p = dog;` is accepted and
    `virtual_ptr<Animal> p = &dog;` is not. The assignment from a reference has the same requirement (core.hpp 924-929), but then a temporary is made by the constructor (`C69_refuted_pointer`). (b) Rvalues are meant to be rejected
    (test_virtual_ptr_value_semantics.cpp 143), but `Other&` accepts rvalues of type `const Dog`, as `Other` is deduced as `const Dog`: a `virtual_ptr<const Dog>` refers to an object that no longer exists
    (`C69_refuted_rvalue`). (c) "`Other*` must be constructible from `Class*`" in the documentation should be the converse.

29. **Smart pointers that are lvalues.** `final_virtual_ptr` is documented to take a reference to an object or a smart pointer. With an lvalue `std::shared_ptr<Dog>` it does not compile: the private constructor with `Other&`
    (core.hpp 1173-1177) is preferred to the one with `Arg&&`, and initializes the smart pointer with its own address (`C70_refuted_lvalue`). With a `const` lvalue it compiles, but `remove_reference_t` leaves `const`, so that the result is
    a `virtual_ptr<const std::shared_ptr<Dog>>`, a pointer to the smart pointer with the v-table of `Dog`; for `std::unique_ptr`, with that of the unregistered class `std::unique_ptr<Dog>` (`C70_refuted_const`). For the same reason no
    type is deduced for `virtual_ptr(e)` if `e` is a `const` smart pointer, though `virtual_ptr<std::shared_ptr<Dog>>(e)` is accepted (`C70_refuted_deduced`). Related: the assignment from a `const std::shared_ptr` that is null dereferences it,
    while the constructor and the assignment from an rvalue check for null (`C71_refuted`, `C71_null_refuted`; core.hpp 1482-1560).

30. **Copies and assignments of objects with `inplace_vptr`** (C73). The mixins declare a default constructor and a destructor only (inplace_vptr.hpp 148-156, 220-231, 256-273), hence copying an object copies the member `boost_openmethod_vptr` and nothing sets it. (a) Slicing: after `Animal a = dog;`, `a` embeds the v-table pointer of `Dog`; a call passes an `Animal` to the overrider for `Dog`. (b) Assignment through a base: after `Animal& animal = cat; animal = dog;`, the cat embeds the v-table pointer of `Dog`. (c) A user-written copy constructor that does not mention the mixin calls its default constructor; if `Dog` has one, and `Bulldog` has an implicit one, a copy of a `Bulldog` embeds the v-table pointer of `Dog`. (d) Otherwise methods called in the copy constructor of a base are dispatched on the class of the source, whose copy does not exist yet. C++ virtual functions behave correctly in all four cases. A copy constructor of the mixins that calls `boost_openmethod_update_vptr`, and an assignment that does nothing, would be correct (every class is `fresh` and `keeps`: C73_partial).

31. **Overrider parameters of other forms than the method's** (C75). For a parameter marked with `virtual_`, `validate_overrider_parameter` checks nothing, and the casts accept much more than the documented forms. Overriders that
    compile, whose class `initialize` finds, and which do not get the object: (a) a `const std::shared_ptr<Dog>&` for a `virtual_<Animal&>`: `dynamic_cast` to a reference to a smart pointer, which always throws `std::bad_cast`
    (`C75_smart`); (b) a `const virtual_ptr<Animal>&` for a `virtual_<Animal&>`: `static_cast` makes a temporary `virtual_ptr`, and `cast` returns a reference to it, which dangles (core.hpp 128-148, 253-262); with
    `virtual_ptr<Dog>` the cast throws (`C75_vptr`); (c) a `std::shared_ptr<Dog>` for a `virtual_<boost::intrusive_ptr<Animal>>`, if `Animal` is a virtual base of `Dog`: it becomes a second owner (boost_intrusive_ptr.hpp 50-54,
    `C75_intrusive`); (d) a `virtual_ptr<Dog>` for a `virtual_<std::unique_ptr<Animal>>`: the object is released and no pointer owns it any more (std_unique_ptr.hpp 43-48, `C75_unique`). Conversely a `std::shared_ptr<Dog>&&`
    is accepted for a `virtual_<const std::shared_ptr<Animal>&>`, and in C++20 for a `virtual_<std::shared_ptr<Animal>>`, where the comment on `cast` announces it (std_shared_ptr.hpp 103-119); but the `virtual_type` of the
    reference is `std::shared_ptr<Dog>`, so `initialize` reports an unknown class (`C75_rvalue`). The macros reject (a) to (d), because the method cannot be called with these types (`documented_of_macro`).

32. **Comparisons with repeated inheritance** (C76). `==` of virtual pointers compares the pointers, after conversion to the class of one of the operands: pointers to two bases of the same class in one object are not equal, though
    the documentation says `true` "if both point to the same object" (`C76_refuted`), and `==` is not transitive: with a virtual base of the repeated class, a pointer to it is equal to pointers which are not equal (`C76_not_transitive`).
    Without repeated inheritance it is as documented (`C76_partial`). This is how C++ compares pointers; nothing in the library depends on it. There is no comparison with `nullptr`, nor of a plain virtual pointer with one that holds a
    `std::shared_ptr` or `std::unique_ptr` (`C76_accepted`).

33. **`odr_violation` outlives the inconsistency, and does not exist for `indirect_registry`** (C78). `odr_check::count` is never decremented: once a library with another definition of `default_registry` was loaded, `initialize` fails even after it is
    unloaded (`C78_refuted`; not with GCC on Linux, where such libraries are never unloaded). Only default_registry.hpp 52 creates an `odr_check` object, for `default_registry`: `odr_check<indirect_registry>::count` is always zero, so that a program built with
    `-DBOOST_OPENMETHOD_DEFAULT_REGISTRY=indirect_registry`, as shared_libraries.adoc recommends, is not protected (`C78_indirect_refuted`).

34. **A trace that is off still writes a line** (C79). preamble.hpp 417-420 says that the tracing code is executed only if `trace::on` is true; `fast_perfect_hash::initialize` (fast_perfect_hash.hpp 173) writes "Finding hash factor for N types" to
    `Registry::output::os`, guarded by the presence of the option only. A program that calls `initialize(trace::from_env())` writes to the error stream although the variable is not set (`C79_refuted`; `C79_off`: nothing else is written).

35. **Options that are variables are ignored** (C80). `initialize(Options&&...)` (initialize.hpp 1611-1627) instantiates `compiler<Options...>` with the deduced types: for a variable, `trace&` or `n2216&`, which `has_option<trace>` does not find in
    the list. `auto t = trace::from_env(); initialize(t);` compiles and never traces; `n2216 rule; initialize(rule);` leaves calls ambiguous (`C80_refuted`, `C80_ambiguous`). So do constants. `std::decay_t<Options>...` would be right.
36. **`using` directives break overriders** (C81). `BOOST_OPENMETHOD_OVERRIDE` declares a container in the current namespace, then specialises it by its unqualified name (macros.hpp 102-106). After `using namespace animals;` in the same namespace,
    that name also denotes the container that `BOOST_OPENMETHOD` declared in `animals`: it is ambiguous, and the program is rejected (`C81_directive`, `C81_clash`), although the method itself is found. The example
    doc/modules/ROOT/examples/headers_namespaces/main_using_directive.cpp does this; it is not among the examples that are built. Besides, overriders are only found "across namespaces" (namespaces.adoc) if the method is in an enclosing
    namespace, or in that of a class among the arguments, or of one of its bases; others need a `using` declaration of the guide (`C81_unrelated`). And methods called `fn`, `next` or `has_next` cannot be called by an unqualified name in
    overriders (`C81_member`).

37. **Memory exhaustion in `initialize` damages a working registry** (C84; corrections: C101). `write_global_data` stores the slots and strides of the methods and the `static_vptr`s of the classes while the new dispatch data is still a local variable (initialize.hpp 1314-1408), and
only then calls `vptr::initialize`, which allocates. If an allocation fails there, the new data is destroyed, and the registry is still considered to be initialized. With `indirect_vptr`, all `static_vptr`s dangle and every call reads released memory
(`C84_dangling`), also if nothing new was registered (`C84_refuted_indirect`). With direct v-table pointers, calls use the slots of the new tables in the old ones, and may silently enter an overrider for another class (`C84_refuted`: an object of class 1 is passed to the overrider for a
derived class 2). `fast_perfect_hash` has overwritten `shift`, `min_value` and `max_value` before it allocates: classes are then reported as missing (`C84_refuted_checked`), or not detected without `runtime_checks` (`C84_refuted_hash`); if the vector cannot be enlarged, its end is passed also with `runtime_checks` (`C84_refuted_vector`). A later successful `initialize` repairs everything (`C84_recovers`). Making all
allocations before the first store would be enough.

38. **Nothing protects a registry that is initialized again while other threads call methods** (C85). The hypothesis `Separate` of `C85` is necessary: there is no synchronisation in the library, and the documentation does not say that one is needed, also where it describes loading libraries
dynamically and calling `initialize` again. The calls and `initialize` then have data races (`C85_races`); even if all accesses were atomic, a call between two stores of `write_global_data` can enter an overrider for another class (`C85_mixed`), and one during `finalize` or after the old tables are released reads
released memory (`C85_released`).

39. **Descriptions of errors** (C88). Those of bad calls are "not implemented" and "ambiguous" for all methods and arguments, although the error objects contain the types (`C88_refuted`). That of a failed search for hash factors ends with a line end of its own, so that an empty
line follows, and says "after 300000s" for 300000 attempts (`C88_newline`). Type ids are written in hexadecimal without a prefix: custom_rtti.adoc says that types appear as "adorned integers, e.g. type_id(2)", but `type_id(10)` is the class of id 16. And because of finding 6, "missing base" is followed by the
derived class.

Finding 3 is not a mistake in the choice of the function that is stored in `next`: if any choice is right for all calls, the stored one is (C90), and in some programs none is (C90_impossible).

Null arguments that overriders pass to `next` are treated differently by the kinds of smart pointers (C92): a null `std::shared_ptr` is passed on; a null `boost::intrusive_ptr` is dereferenced if the class of the overrider inherits virtually from that of the method (boost_intrusive_ptr.hpp 50-54), and passed on otherwise; a null `std::unique_ptr` is always dereferenced (std_unique_ptr.hpp 43-53). In `callThunk`, the arguments are inspected before the check that the registry is initialized; in the code, after it, which makes a difference only for null arguments and a registry that is not initialized.

Finding 38 has a remedy outside of the library: a readers-writer lock for each registry, held in shared mode by calls and in exclusive mode by everything else (C93). Locks between the threads that change registries are not enough, since calls read the tables without any (C85_mixed).

40. **Error classes of policies** (C94, C95). `default_registry::with<fast_perfect_hash>` has the policy twice (finding about C40), and so `search_error` is twice in `error_variant`; then `initialize` is rejected by the compiler (`C94_refuted`). An error that its policy does not list is rejected, or, if it derives from a listed one, reaches the handler as a slice, silently (`C94_unlisted` and the examples). The documentation of `throw_error_handler` says that errors can be caught as `std::runtime_error`; those that derive from `std::runtime_error` themselves cannot, since the base is ambiguous (`C95_refuted`). All errors of the library itself are received, and caught, as they should (`C94_library`, `C95_library`).

41. **Method names that end in an underscore** (C98_reserved, C98_trailing). `NAME##_boost_openmethod` pastes the underscore of the suffix after that of the name. For a method `poke_` the macros declare `poke__boost_openmethod`, an identifier that C++ reserves to the implementation ([lex.name]); declaring it is ill-formed, no diagnostic required. No compiler is known to object. The documentation does not warn of it.

Findings 1, 2 and 4 are independent, and local corrections of all three are sufficient for calls: see C89.

Harmless oddities: a v-table may have unused slots filled with the entry of method 0, which no call reads for order-safe classes; `static_vptr` may point before
the buffer (formally undefined pointer arithmetic, not counted as undefined here); words written as integers are read as pointers of the same size;
in traces, the number of a group is not incremented after an ambiguous cell (`continue` in initialize.hpp 1195 skips line 1281).

Observed while reading, outside of the model, so without a theorem: (a) Overriders that are `noexcept`
functions do not match `OverriderReturn (*)(OverriderParameters...)` (core.hpp 2710-2728), so `override<f>` does not compile for them. (b) The comment on `next` says that it is null if there is no next overrider;
it is set to `fn_not_implemented` or `fn_ambiguous`, which C13 and C16 cover. (c) A method that returns a plain `virtual_ptr<Animal>` accepts overriders that return `virtual_ptr<std::shared_ptr<Dog>>`: the
caller receives a pointer to an object that nobody owns any more, unless it is shared elsewhere. (d) Traces: `param_index` is never incremented in `augment_methods` (initialize.hpp 726-743, 785-805), so the trace calls any parameter
of an unknown class #1; `first_slot + vtbl.size() - 1` is 2^64 - 1 for a class with an empty v-table; `print` indents twice. The contents of the trace are documented as unspecified. (e) An overrider of a method
returning a class that returns `std::nullptr_t` makes `initialize` look up `void` as a class. (f) A registry with `static_rtti` and an error handler does not compile: `init_bad_call` (core.hpp 1970-2000) calls
`rtti::dynamic_type`, which `static_rtti` does not have. (g) `init_bad_call` applies `dynamic_type` to all arguments, not only virtual ones: with an error handler, a parameter that is a reference to an incomplete class does not compile. (h) The last specialization of `init_bad_call` (core.hpp 1996-2000)
accepts no arguments: with an error handler, methods with more than 16 parameters do not compile; `enter` cuts the list instead.

Preconditions that are not checked by the code are in `Program.Valid` and `Program.Good`: acyclic inheritance, overriders with the arity of their method, distinct
ids, no id equal to `UINTPTR_MAX` with `vptr_vector`, less than 100 million classes for the hash.

### Wrong programs

`seeded/LOG.jsonl` has one record for each wrong version of a definition of the model that was built in a copy. `failed`: the declarations
with errors. `property_theorems_no_longer_proved`: the property theorems that use one of them; where only helper lemmas fail, this does not show
by itself that the property is false for the edit. `statements_false_on_samples`: for part of the records, the statements that were evaluated on
samples and found false. Edits that change nothing that is claimed have a note. The first 156 records were appended together, after the
edits had been tried; the others, each after its build.

## 6. Axioms per theorem

Obtained with `#print axioms` for every theorem of the manifest.

| Axioms | Theorems |
|---|---|
| propext, Classical.choice, Quot.sound | all the others |
| propext, Quot.sound | C29, C30, C30_converse, C30_unchecked, C31_result, C32_data_partial, C37_refuted, C40_lookup, C40_without, C40_partial, C41_actual, C43, C43_converse, C43_returns, C43_throw, C51, C51_calls, C52, C60_refuted, C61_partial, C64_record, C64_refuted, C65_deterministic, C73_user_refuted, C77_initialize, C77_history, C77_unchecked, C79_classes, C80_ignored, C81_adl, C81_enclosing, C81_using, C81_salesman, C81_unrelated, C81_hidden, C82_64, C83_same, C83_make, C84_data, C84_early, C84_errors, C85_reads, C86_loop, C87_call, C89_library, C91, C92_call, C94_refuted, C96_same, C97_library, C99_library, C100_unchanged, C100_same, C100_library, C101_unchanged, C101_each, C101_strong, C101_same, C101_library |
| propext | C35_default, C40_refuted, C50_never, C59_rvalue, C64_other, C64_void, C64_registry, C70_final_partial, C70_make, C70_final_sound, C70_deduced_partial, C70_deduced_copy, C70_refuted_lvalue, C70_refuted_const, C70_refuted_deduced, C70_refuted, C71_final_ops, C72_params, C74_rejected, C75_partial, C75_exact, C77_notInitialized, C78_others, C78_refuted, C78_indirect_refuted, C81_member, C85_footprint |
| Quot.sound | C73_within |

