{"id": "C01", "title": "One virtual argument: the most specific overrider runs", "statement": "After a successful initialize, calling a method that has one virtual parameter (and any number of non-virtual ones, in any position) with an object of a registered class runs the overrider whose parameter class is the object's class or its closest registered ancestor having an overrider; when two unrelated ancestors qualify the call is reported as ambiguous, and when none qualifies as not implemented.", "quantifier": "every set of registered classes, methods and overriders accepted by initialize, every registration order of overriders, every argument class", "why_tests_cant": "The number of hierarchies, overrider sets and registration orders is unbounded; tests fix a handful of them.", "anchors": ["include/boost/openmethod/initialize.hpp: compiler::compile, build_dispatch_table, select_dominant_overriders, write_global_data", "include/boost/openmethod/core.hpp: method::resolve_uni"]}
{"id": "C02", "title": "Several virtual arguments: the documented overload-resolution rule decides", "statement": "After a successful initialize, calling a method with several virtual parameters runs exactly the overrider designated by the documented rule: collect the overriders applicable to the arguments' dynamic classes, drop every overrider dominated by another one, and call the single survivor.", "quantifier": "every accepted program, every method of arity 2 or more, every tuple of registered argument classes, every registration order", "why_tests_cant": "A test fixes one lattice and one order of registration; the rule interacts with multiple inheritance, grouping and table layout in unboundedly many ways.", "anchors": ["include/boost/openmethod/initialize.hpp: build_dispatch_tables, build_dispatch_table, select_dominant_overriders, is_more_specific", "include/boost/openmethod/core.hpp: method::resolve_multi_first, resolve_multi_next"]}
{"id": "C03", "title": "no_overrider is reported exactly when nothing is applicable", "statement": "A method call ends in no_overrider if and only if no registered overrider accepts the tuple of dynamic classes of the virtual arguments.", "quantifier": "every accepted program, every method, every argument tuple", "why_tests_cant": "Needs both directions for every tuple and every overrider set, including those where overriders dominate each other in cycles.", "anchors": ["include/boost/openmethod/initialize.hpp: build_dispatch_table, select_dominant_overriders", "include/boost/openmethod/core.hpp: method::fn_not_implemented"]}
{"id": "C04", "title": "ambiguous_call is reported exactly when there is no single best overrider", "statement": "Without the n2216 option, a call ends in ambiguous_call if and only if at least one overrider is applicable and the set of applicable overriders not dominated by another applicable one is not a singleton.", "quantifier": "every accepted program, every method, every argument tuple, every registration order", "why_tests_cant": "Selection is an order-dependent pairwise elimination; only a proof covers all orders and all dominance relations.", "anchors": ["include/boost/openmethod/initialize.hpp: select_dominant_overriders, is_more_specific", "include/boost/openmethod/core.hpp: method::fn_ambiguous"]}
{"id": "C05", "title": "Non-virtual parameters never influence dispatch", "statement": "The overrider selected by a call depends only on the dynamic classes of the virtual arguments; non-virtual parameters may be placed before, between or after the virtual ones without changing which overrider runs.", "quantifier": "every method signature mixing virtual and non-virtual parameters, every argument tuple", "why_tests_cant": "Signatures are unbounded; the repository's tests have no method with a non-virtual parameter between two virtual ones.", "anchors": ["include/boost/openmethod/core.hpp: method::resolve_uni, resolve_multi_first, resolve_multi_next"]}
{"id": "C06", "title": "The order and grouping of class registrations does not matter", "statement": "As long as each class is registered together with its direct bases in at least one use_classes, classes may be registered several times, in any order and incrementally, and every call dispatches as if all classes had been registered at once.", "quantifier": "every split and every permutation of the class registrations", "why_tests_cant": "The number of orders grows factorially and depends on link order and on the order in which std::tuple builds its elements.", "anchors": ["include/boost/openmethod/initialize.hpp: augment_classes, collect_transitive_bases, assign_lattice_slots", "include/boost/openmethod/core.hpp: use_classes, inheritance_map"]}
{"id": "C07", "title": "The order in which overriders are registered does not matter", "statement": "Registering the same overriders of a method in another order does not change the outcome of any call.", "quantifier": "every permutation of every overrider list, every argument tuple", "why_tests_cant": "Order comes from static initialisation across translation units; tests exercise one order.", "anchors": ["include/boost/openmethod/initialize.hpp: select_dominant_overriders"]}
{"id": "C08", "title": "A unique best overrider always wins", "statement": "If one applicable overrider is more specialised than every other applicable overrider, it is the one called, whatever the registration order and whatever the (multiple) inheritance graph.", "quantifier": "every accepted program, every tuple, every order", "why_tests_cant": "Holds without the single-inheritance assumptions needed by C02, so it must be shown for relations that are not even transitive.", "anchors": ["include/boost/openmethod/initialize.hpp: select_dominant_overriders, is_more_specific"]}
{"id": "C09", "title": "The overrider that runs always accepts its arguments", "statement": "Whatever the hierarchy, an overrider is entered by a method call only with arguments whose classes are the classes it declares or derive from them.", "quantifier": "every accepted program, every tuple", "why_tests_cant": "A violation is a silent bad cast (undefined behaviour) that a test only sees for the tuples it tries.", "anchors": ["include/boost/openmethod/initialize.hpp: build_dispatch_tables, build_dispatch_table", "include/boost/openmethod/core.hpp: thunk"]}
{"id": "C10", "title": "Two virtual parameters never share a v-table slot in one class", "statement": "For every registered class, the v-table slots used by the virtual parameters that accept this class are pairwise distinct, so that calling one method never reads another method's entry.", "quantifier": "every lattice (single, multiple, virtual, repeated diamond), every placement of methods", "why_tests_cant": "Slot allocation is a graph-colouring heuristic over an arbitrary lattice; tests cover a few diamonds.", "anchors": ["include/boost/openmethod/initialize.hpp: assign_slots, assign_tree_slots, assign_lattice_slots"]}
{"id": "C11", "title": "Calls never read outside the tables", "statement": "A call made after a successful initialize with arguments of registered classes only reads words that lie inside the dispatch data built by that initialize, and each word it reads was written with the kind (function, pointer or index) with which it is read.", "quantifier": "every accepted program, every method with contiguous virtual parameters, every tuple", "why_tests_cant": "Out-of-bounds reads may go unnoticed in tests and depend on table layout.", "anchors": ["include/boost/openmethod/initialize.hpp: write_global_data", "include/boost/openmethod/core.hpp: resolve_uni, resolve_multi_first, resolve_multi_next"]}
{"id": "C12", "title": "initialize fills its buffer exactly within bounds", "statement": "While installing the tables, initialize never writes past the buffer it allocated, whatever the number and kind of methods and classes.", "quantifier": "every accepted program", "why_tests_cant": "Sizes are computed separately from the writes; only a proof relates both for all programs.", "anchors": ["include/boost/openmethod/initialize.hpp: write_global_data"]}
{"id": "C13", "title": "next designates the overrider that would run if this one did not exist", "statement": "After initialize, next of an overrider Fn is the overrider that would be called for the same arguments if Fn were not registered, or an error function when there is none or several.", "quantifier": "every accepted program, every overrider, every tuple for which it is selected", "why_tests_cant": "One pointer is shared by all tuples that select Fn; consistency over all of them cannot be sampled.", "anchors": ["include/boost/openmethod/initialize.hpp: build_dispatch_table (next)", "include/boost/openmethod/core.hpp: method::next"]}
{"id": "C14", "title": "next accepts the arguments it is called with", "statement": "When Fn runs as the result of a call, calling next from Fn with the same arguments never enters an overrider whose parameter classes do not accept the arguments.", "quantifier": "every accepted program, every overrider and tuple", "why_tests_cant": "A violation is a silent bad cast for particular tuples only.", "anchors": ["include/boost/openmethod/initialize.hpp: build_dispatch_table (next), write_global_data"]}
{"id": "C15", "title": "Chains of next terminate", "statement": "Following next from any overrider reaches an error function after at most as many steps as the method has overriders.", "quantifier": "every accepted program, every overrider", "why_tests_cant": "Termination over all graphs.", "anchors": ["include/boost/openmethod/initialize.hpp: build_dispatch_table (next)"]}
{"id": "C16", "title": "has_next predicts whether next can be called", "statement": "For an overrider that was entered by a method call, has_next is true if and only if next designates an overrider, i.e. calling it does not report a bad call.", "quantifier": "every accepted program, every overrider", "why_tests_cant": "Depends on pointer values left by all dispatch-table cells.", "anchors": ["include/boost/openmethod/core.hpp: method::has_next", "include/boost/openmethod/initialize.hpp: write_global_data"]}
{"id": "C17", "title": "A clean report guarantees no bad call", "statement": "If the report returned by initialize has not_implemented and ambiguous equal to zero, then no method call with registered argument classes can report no_overrider or ambiguous_call; conversely a non-zero count is witnessed by a tuple of registered classes (abstract classes included) that does.", "quantifier": "every accepted program, every method, every tuple", "why_tests_cant": "The report summarises tables whose cells stand for sets of classes.", "anchors": ["include/boost/openmethod/initialize.hpp: build_dispatch_table, accumulate, method_report, report"]}
{"id": "C18", "title": "report.cells is the size of the multi-method tables", "statement": "The cells field of the report is the sum, over methods with two or more virtual parameters, of the product over their dimensions of the number of classes distinguishable by overrider applicability.", "quantifier": "every accepted program", "why_tests_cant": "Quantifies over all programs.", "anchors": ["include/boost/openmethod/initialize.hpp: build_dispatch_tables, accumulate"]}
{"id": "C19", "title": "Unregistered classes are detected by initialize", "statement": "initialize reports missing_class if and only if a class named as a base, as a virtual parameter of a method or of an overrider, or as covariant return type of an overrider of a method whose return class is registered, was not registered; the reported type is one of them.", "quantifier": "every set of registrations", "why_tests_cant": "Both directions, over all inputs.", "anchors": ["include/boost/openmethod/initialize.hpp: augment_classes, augment_methods", "include/boost/openmethod/preamble.hpp: missing_class"]}
{"id": "C20", "title": "Missing base relations are detected by initialize", "statement": "When all classes are registered, initialize reports missing_base if and only if some overrider's parameter class is not known to be the method's parameter class or derive from it; the error names the method's class as base and the overrider's class as derived.", "quantifier": "every set of registrations", "why_tests_cant": "Both directions, over all inputs and indirect derivations.", "anchors": ["include/boost/openmethod/initialize.hpp: augment_methods", "include/boost/openmethod/preamble.hpp: missing_base"]}
{"id": "C21", "title": "Known inheritance is the transitive closure of what was registered", "statement": "The inheritance relation used for dispatch is exactly the reflexive and transitive closure of the registered (class, base) pairs, whatever duplicates, indirect bases and orders occur in the registrations.", "quantifier": "every list of class registrations forming an acyclic relation", "why_tests_cant": "Unbounded graphs and orders.", "anchors": ["include/boost/openmethod/initialize.hpp: augment_classes, collect_transitive_bases, calculate_transitive_derived"]}
{"id": "C22", "title": "Several type ids for one class are equivalent", "statement": "When a class is registered under several type ids having the same type index, objects carrying any of these ids dispatch identically.", "quantifier": "every program, every class, every pair of its type ids", "why_tests_cant": "Needs all vptr policies and all id layouts.", "anchors": ["include/boost/openmethod/initialize.hpp: augment_classes", "include/boost/openmethod/policies/vptr_vector.hpp: initialize", "include/boost/openmethod/policies/vptr_map.hpp: initialize"]}
{"id": "C23", "title": "The hash is perfect on registered types", "statement": "When fast_perfect_hash initializes successfully, distinct registered type ids have distinct hash values, all between the returned minimum and maximum, and the maximum is smaller than the number of buckets.", "quantifier": "every set of type ids (other than UINTPTR_MAX), every sequence of random factors", "why_tests_cant": "2^64 ids and random factors.", "anchors": ["include/boost/openmethod/policies/fast_perfect_hash.hpp: initialize, hash"]}
{"id": "C24", "title": "With runtime checks, hashing detects every unregistered class and only those", "statement": "With the runtime_checks policy, hashing a type id after a successful initialize reports missing_class if and only if this id was not registered, and never reads outside the control table.", "quantifier": "every registered set, every queried id (other than UINTPTR_MAX), every random sequence, every earlier history of the control table", "why_tests_cant": "Unregistered ids may collide with registered ones; infinite input space.", "anchors": ["include/boost/openmethod/policies/fast_perfect_hash.hpp: check, hash"]}
{"id": "C25", "title": "A failed hash search is reported with its true parameters", "statement": "If no perfect hash is found, search_error is reported after 400000 attempts; its attempts field is the number of attempts made and its buckets field is the number of buckets used in the last attempt.", "quantifier": "every set of type ids and random sequence for which the search fails", "why_tests_cant": "Failure needs adversarial ids; hard to provoke in a test.", "anchors": ["include/boost/openmethod/policies/fast_perfect_hash.hpp: initialize, search_error"]}
{"id": "C26", "title": "vptr_vector returns the class's v-table pointer", "statement": "After initialize, vptr_vector returns, for an object of a registered class, the v-table pointer of that class, without reading outside the vector, with or without a type_hash, direct or indirect, whatever the vector contained before.", "quantifier": "every set of classes and ids, every history of earlier initializations", "why_tests_cant": "Unbounded id sets and histories; stale entries remain in the vector.", "anchors": ["include/boost/openmethod/policies/vptr_vector.hpp: initialize, dynamic_vptr"]}
{"id": "C27", "title": "vptr_map returns the class's v-table pointer or reports missing_class", "statement": "After initialize, vptr_map returns the v-table pointer of a registered class; with runtime checks it reports missing_class for exactly the unregistered ids.", "quantifier": "every set of classes and ids, every queried id", "why_tests_cant": "Unbounded input.", "anchors": ["include/boost/openmethod/policies/vptr_map.hpp: initialize, dynamic_vptr"]}
{"id": "C28", "title": "With runtime checks, unregistered virtual arguments are always detected", "statement": "In a registry with runtime_checks, calling a method with an argument whose class was not registered reports missing_class, for every vptr policy.", "quantifier": "every policy combination, every unregistered class", "why_tests_cant": "Detection depends on where the unregistered id falls among the registered ones.", "anchors": ["include/boost/openmethod/policies/vptr_vector.hpp: dynamic_vptr", "include/boost/openmethod/policies/vptr_map.hpp: dynamic_vptr", "include/boost/openmethod/policies/fast_perfect_hash.hpp: check"]}
{"id": "C29", "title": "The registration lists behave as sequences", "statement": "After any sequence of registrations and unregistrations, iterating over a registry's classes or methods (or a method's overriders) visits exactly the currently registered items, once each, in order of registration; unregistering works for the first, last, middle or only item, and an unregistered item can be registered again.", "quantifier": "every history of push_back, remove and clear", "why_tests_cant": "Infinite histories; pointer corruption only shows on particular interleavings.", "anchors": ["include/boost/openmethod/detail/static_list.hpp: push_back, remove, clear, iterator"]}
{"id": "C30", "title": "Calls on an uninitialized registry are detected", "statement": "In a registry with runtime_checks, every method call, and every construction of a virtual_ptr from an object, made before the first successful initialize or after finalize (and before a new successful initialize) reports not_initialized.", "quantifier": "every history of registrations, initializations, failed initializations and finalizations", "why_tests_cant": "Histories are unbounded.", "anchors": ["include/boost/openmethod/preamble.hpp: registry::require_initialized", "include/boost/openmethod/initialize.hpp: compiler::initialize, registry::finalize"]}
{"id": "C31", "title": "initialize depends only on what is currently registered", "statement": "After a successful initialize, the outcome of every call depends only on the classes, methods and overriders registered at that time, not on earlier registrations, initializations or finalizations. In particular, unloading a plugin and initializing again restores the previous behaviour.", "quantifier": "every history", "why_tests_cant": "Histories are unbounded and tables are reused across initializations.", "anchors": ["include/boost/openmethod/initialize.hpp: write_global_data, registry::finalize", "include/boost/openmethod/policies/vptr_vector.hpp: initialize"]}
{"id": "C32", "title": "A failed initialize does not damage a working registry", "statement": "If initialize fails with an error that the handler turns into an exception, method calls that worked before still work and dispatch as before.", "quantifier": "every history, every failing initialize, every later call", "why_tests_cant": "The failure can occur at several points of initialize, after some global tables were already overwritten.", "anchors": ["include/boost/openmethod/initialize.hpp: compiler::initialize, write_global_data", "include/boost/openmethod/policies/fast_perfect_hash.hpp: initialize"]}
{"id": "C33", "title": "Indirect virtual_ptrs survive re-initialization", "statement": "In a registry with indirect_vptr, a virtual_ptr created at any time remains usable after later successful initializations and dispatches according to the latest registrations; in a registry without it, its v-table pointer refers to freed tables after the next successful initialize.", "quantifier": "every history, every virtual_ptr created along it", "why_tests_cant": "Dangling pointers often appear to work in tests.", "anchors": ["include/boost/openmethod/core.hpp: box_vptr, unbox_vptr, acquire_vptr, virtual_ptr"]}
{"id": "C34", "title": "Calling through a virtual_ptr is equivalent to calling with the object", "statement": "A method call made with a virtual_ptr built from an object (from a reference, by final_virtual_ptr, by copy, by conversion to a base or by cast to a derived class) selects the same overrider as the same call made with a reference to the object.", "quantifier": "every program, every object class, every chain of virtual_ptr conversions", "why_tests_cant": "Unbounded chains of conversions.", "anchors": ["include/boost/openmethod/core.hpp: virtual_ptr, final_virtual_ptr, method::vptr"]}
{"id": "C35", "title": "virtual_ptr keeps its object and v-table pointers consistent", "statement": "After any sequence of constructions, copies, moves, assignments and casts, a virtual_ptr is either null (both pointers null) or refers to an object together with the v-table of this object's dynamic class; none of these operations dereferences a null pointer.", "quantifier": "every sequence of operations on any number of virtual_ptrs, plain or smart", "why_tests_cant": "Unbounded sequences; null cases are rarely tested.", "anchors": ["include/boost/openmethod/core.hpp: virtual_ptr (plain and smart), operator=, cast"]}
{"id": "C36", "title": "final_virtual_ptr rejects objects of another class", "statement": "With runtime checks, final_virtual_ptr reports final_error if and only if the dynamic class of the (polymorphic) object differs from its static class; otherwise the resulting pointer dispatches like the object.", "quantifier": "every object, every static class", "why_tests_cant": "Includes classes having several type ids.", "anchors": ["include/boost/openmethod/core.hpp: final_virtual_ptr", "include/boost/openmethod/preamble.hpp: final_error"]}
{"id": "C37", "title": "Inplace v-table pointers follow construction and destruction", "statement": "With inplace_vptr, after the constructor of a class has started its body, and until the end of its destructor's body, every v-table pointer embedded in the object designates that class; when the complete object is alive they designate its dynamic class.", "quantifier": "every hierarchy of classes using inplace_vptr_base and inplace_vptr_derived, every class, every construction or destruction step", "why_tests_cant": "Unbounded hierarchies and multiple roots.", "anchors": ["include/boost/openmethod/inplace_vptr.hpp: inplace_vptr_base, inplace_vptr_derived, boost_openmethod_update_vptr"]}
{"id": "C38", "title": "n2216 selection is safe", "statement": "With the n2216 option, initialize never has undefined behaviour while choosing among ambiguous overriders.", "quantifier": "every accepted program with covariant return types", "why_tests_cant": "A null dereference appears only with three or more ambiguous overriders in certain orders.", "anchors": ["include/boost/openmethod/initialize.hpp: select_dominant_overriders"]}
{"id": "C39", "title": "n2216 prefers the most specialised return type and never reports ambiguity", "statement": "With the n2216 option no call reports ambiguous_call; the overrider called is an undominated applicable one, and if exactly one undominated overrider has a return class strictly derived from those of all other undominated ones, it is called.", "quantifier": "every accepted program, every tuple, every registration order", "why_tests_cant": "Order and return-type lattice are arbitrary.", "anchors": ["include/boost/openmethod/initialize.hpp: select_dominant_overriders, build_dispatch_table"]}
{"id": "C40", "title": "A registry holds at most one policy per category", "statement": "with<Policy...> yields a registry in which each added policy is the one found for its category, other categories are unchanged, and no category appears twice; without<Category...> removes exactly the policies of these categories.", "quantifier": "every policy list, every sequence of with and without", "why_tests_cant": "Type-level computation over all lists.", "anchors": ["include/boost/openmethod/preamble.hpp: with_aux, without_aux, registry::with, registry::without, registry::policy"]}
{"id": "C41", "title": "bad_call describes the virtual arguments", "statement": "When a call reports no_overrider or ambiguous_call, error.arity is the number of virtual arguments and error.types holds the dynamic types of the virtual arguments in order.", "quantifier": "every method signature, every argument tuple", "why_tests_cant": "Signatures are unbounded.", "anchors": ["include/boost/openmethod/core.hpp: init_bad_call, fn_not_implemented, fn_ambiguous", "include/boost/openmethod/preamble.hpp: bad_call"]}
{"id": "C42", "title": "Dispatch does not depend on unspecified library orders", "statement": "Which overrider a call selects does not depend on the iteration order of unordered containers nor on how std::sort orders equivalent elements.", "quantifier": "every iteration order and every stable or unstable sort", "why_tests_cant": "A test sees one standard library and one address layout.", "anchors": ["include/boost/openmethod/initialize.hpp: augment_classes, calculate_transitive_derived, assign_lattice_slots, build_dispatch_tables"]}
{"id": "C43", "title": "Errors never return to the caller", "statement": "When the library detects an error, the error handler (if any) is called once with it, and control does not return to the code that caused the error: either the handler throws or the program is aborted.", "quantifier": "every operation, every error, every handler behaviour", "why_tests_cant": "All error paths and all handler behaviours must be covered, including a handler that returns.", "anchors": ["include/boost/openmethod/core.hpp: fn_not_implemented, fn_ambiguous, final_virtual_ptr", "include/boost/openmethod/initialize.hpp: augment_classes, augment_methods", "include/boost/openmethod/preamble.hpp: require_initialized", "include/boost/openmethod/policies/default_error_handler.hpp: error"]}
{"id": "C44", "title": "Setting the error handler returns the previous one", "statement": "default_error_handler::set installs the given function and returns the one it replaces; errors are passed to the most recently installed function.", "quantifier": "every sequence of set and error calls", "why_tests_cant": "Histories are unbounded.", "anchors": ["include/boost/openmethod/policies/default_error_handler.hpp: set, error"]}
{"id": "C45", "title": "Registries are independent", "statement": "Registering, initializing, finalizing or failing in one registry does not change the outcome of calls to methods of another registry.", "quantifier": "every interleaving of operations on any number of registries", "why_tests_cant": "Interleavings are unbounded.", "anchors": ["include/boost/openmethod/preamble.hpp: registry"]}
{"id": "C46", "title": "Abstractness has no effect on dispatch", "statement": "Marking a class as abstract does not change the outcome of any call nor any v-table.", "quantifier": "every program", "why_tests_cant": "All programs.", "anchors": ["include/boost/openmethod/initialize.hpp: augment_classes, build_dispatch_tables"]}
{"id": "C47", "title": "Registering a class again changes nothing", "statement": "Registering again a class with the same bases (for example from another translation unit) does not change the known inheritance, the outcome of any call or any error.", "quantifier": "every program, every repeated registration, every position", "why_tests_cant": "All programs and positions.", "anchors": ["include/boost/openmethod/initialize.hpp: augment_classes"]}
{"id": "C48", "title": "Adding an overrider only affects the calls it applies to", "statement": "Registering one more overrider does not change the outcome of a call to which it is not applicable, nor any call to another method.", "quantifier": "every program, every additional overrider, every tuple", "why_tests_cant": "All programs.", "anchors": ["include/boost/openmethod/initialize.hpp: build_dispatch_tables, build_dispatch_table"]}
{"id": "C49", "title": "Slots of a lattice class are compact in its v-table", "statement": "The v-table allocated for a class starts at its first used slot and ends at its last, and every slot read through it by a call lies in it, even though the stored pointer is shifted back by the first slot.", "quantifier": "every lattice", "why_tests_cant": "All lattices; the shifted pointer may lie outside the buffer.", "anchors": ["include/boost/openmethod/initialize.hpp: assign_slots, write_global_data"]}
{"id": "C50", "title": "Inplace pointers and virtual_ptr agree under indirect_vptr", "statement": "In a registry with indirect_vptr, a virtual_ptr built from an object that embeds its v-table pointer (inplace_vptr) remains valid as long as the object and its registry do.", "quantifier": "every object, every later use of the virtual_ptr", "why_tests_cant": "A dangling pointer to a temporary usually still works in a test.", "anchors": ["include/boost/openmethod/core.hpp: acquire_vptr, box_vptr", "include/boost/openmethod/inplace_vptr.hpp: boost_openmethod_vptr"]}
{"id": "C51", "title": "finalize empties every table of the registry", "statement": "After finalize, whatever happened before, the dispatch data, the v-table pointer tables and the control table of the hash function of the registry are empty as at program start, and no call or virtual_ptr construction succeeds until the next successful initialize: with runtime_checks it reports not_initialized.", "quantifier": "every history of the registry, every policy set, every later call", "why_tests_cant": "Tests finalize once after one initialize; tables left behind by a failed or repeated initialize are not observed.", "anchors": ["include/boost/openmethod/initialize.hpp: finalize", "include/boost/openmethod/policies/vptr_vector.hpp: finalize", "include/boost/openmethod/policies/vptr_map.hpp: finalize", "include/boost/openmethod/policies/fast_perfect_hash.hpp: finalize"]}
{"id": "C52", "title": "The default error handler describes each error once", "statement": "With default_error_handler and its default function, the description of an error is written exactly once if the registry has an output policy; in all other cases, and when there is no error, nothing is written.", "quantifier": "every operation, every state, every error handler policy", "why_tests_cant": "Tests capture output for a few errors only, and rarely check that nothing is written.", "anchors": ["include/boost/openmethod/policies/default_error_handler.hpp: default_handler"]}
{"id": "C53", "title": "The hash tables grow linearly with the number of classes", "statement": "When factors are found, the number of buckets is more than 5/4 of the number of classes and at most 16 times max(1, 5/4 of the number of classes), whatever the type ids; the vector of v-table pointers is not longer.", "quantifier": "every set of type ids, every random sequence", "why_tests_cant": "The size depends on the addresses of type_info objects and on how many passes the search needs.", "anchors": ["include/boost/openmethod/policies/fast_perfect_hash.hpp: initialize", "include/boost/openmethod/policies/vptr_vector.hpp: initialize"]}
{"id": "C54", "title": "initialize sees exactly the live registrars", "statement": "After any construction and destruction of use_classes, method and override objects, in any order (in particular overriders before their method), initialize finds exactly the classes, methods and overriders that are alive, in the order of their construction; with deferred_static_rtti their type ids are those returned by static_type at the time of initialize, otherwise at the time of construction. There is no undefined behaviour and no failed assertion.", "quantifier": "every history of construction, destruction and unloading that C++ allows, with or without deferred_static_rtti", "why_tests_cant": "The order of construction of static objects in several modules is chosen by the linker and the loader.", "anchors": ["include/boost/openmethod/core.hpp: use_class_aux, method::method, override_impl", "include/boost/openmethod/preamble.hpp: overrider_info", "include/boost/openmethod/initialize.hpp: augment_classes, augment_methods"]}
{"id": "C55", "title": "Unloaded registrations leave no trace", "statement": "If classes, methods and overriders are registered and later unregistered, interleaved in any way with the registration of others and with calls to initialize, then after initialize everything is as if they had never been registered.", "quantifier": "every history, every set of objects that are dead at the end", "why_tests_cant": "Requires loading and unloading shared libraries in all orders.", "anchors": ["include/boost/openmethod/core.hpp: ~use_class_aux, ~method", "include/boost/openmethod/preamble.hpp: ~overrider_info", "include/boost/openmethod/detail/static_list.hpp: remove"]}
{"id": "C56", "title": "Arguments reach the overriders intact", "statement": "A call with objects of registered classes either reports an error, or enters an overrider of the method that accepts the classes of the objects, and which receives the same objects as references or pointers to its own parameter classes, with the same v-table pointer if they are virtual_ptrs, and the other arguments unchanged. No cast fails or has undefined behaviour. The same holds for each overrider reached by next.", "quantifier": "every C++ class hierarchy with single, multiple and virtual inheritance, every program, every way to pass arguments, any number of uses of next", "why_tests_cant": "The choice of static or dynamic cast and its success depend on the whole inheritance graph and on the subobject designated.", "anchors": ["include/boost/openmethod/core.hpp: optimal_cast, virtual_traits, thunk::fn, next", "include/boost/openmethod/interop/std_shared_ptr.hpp: cast", "include/boost/openmethod/interop/std_unique_ptr.hpp: cast", "include/boost/openmethod/interop/boost_intrusive_ptr.hpp: cast"]}
{"id": "C57", "title": "use_classes registers the inheritance of the C++ classes", "statement": "When each class is listed together with its direct bases in some use_classes, the registry knows exactly the listed classes, and its inheritance relation is that of the C++ classes, direct and indirect, virtual or not. It has no cycle, and all the recorded bases are unambiguous. Without this condition, every recorded relation is still true. A use_classes that lists a class with an ambiguous base does not compile.", "quantifier": "every C++ class hierarchy, every division of classes among use_classes, every order of registration, any number of type ids per class", "why_tests_cant": "The order of construction of the members of a std::tuple and of static objects is unspecified; there are unboundedly many ways to divide a hierarchy.", "anchors": ["include/boost/openmethod/core.hpp: is_unambiguous_accessible_base_of, inheritance_map, use_class_aux, use_classes"]}
{"id": "C58", "title": "Calls follow C++ inheritance, from use_classes to the body of the overrider", "statement": "When classes are registered as documented and have no repeated inheritance, a call with objects of registered classes has the documented outcome with respect to the inheritance of the C++ classes: the only undominated applicable overrider is entered with the same objects, cast to its own parameter classes, or the call is reported as not implemented or ambiguous.", "quantifier": "every C++ class hierarchy, every division of classes among use_classes, every order of registration, all methods and overriders, all classes of arguments, all ways of passing them, any previous state of the registry", "why_tests_cant": "Composes registration, table construction, dispatch and casts, over unbounded hierarchies.", "anchors": ["include/boost/openmethod/core.hpp: use_classes, method::operator(), thunk::fn", "include/boost/openmethod/initialize.hpp: initialize"]}
{"id": "C59", "title": "The compiler accepts exactly the documented overriders", "statement": "An overrider is accepted by the static checks and casts of the library if and only if each of its parameters meets the documented requirement: for a virtual_ptr<T> or virtual_<T> of the method, a parameter of the same form whose class is the same or has it as an unambiguous base; for any other parameter, the same type.", "quantifier": "all class hierarchies, all types of parameters of methods and overriders, plain and smart virtual_ptrs by value and by reference, all registries", "why_tests_cant": "A compile-fail test exercises one pair of types; which partial specialisation is selected, or that none is the most specialised, depends on all of them.", "anchors": ["include/boost/openmethod/core.hpp: validate_overrider_parameter, same_reference_category, parameter_traits, thunk::fn"]}
{"id": "C60", "title": "Records of methods and accepted overriders name one class per virtual parameter", "statement": "The record of an accepted method names exactly one class for each of its virtual parameters; that of an accepted overrider names as many, in the same order, and each is the class of the method or has it as an unambiguous base.", "quantifier": "all class hierarchies, all lists of parameters, any mixture of virtual and other parameters", "why_tests_cant": "Type lists have unbounded lengths; a missing class is silently replaced by a zero type id.", "anchors": ["include/boost/openmethod/core.hpp: virtual_types, overrider_virtual_types, method::resolve_type_ids, override_impl::resolve_type_ids"]}
{"id": "C61", "title": "Methods are accepted when their virtual parameters belong to their registry", "statement": "A method is accepted if and only if each virtual parameter refers to a class in the registry of the method, of which the v-table pointer can be acquired when it is marked with virtual_; other parameters can have any type.", "quantifier": "all types of parameters, all registries", "why_tests_cant": "A compile-fail test exercises one type.", "anchors": ["include/boost/openmethod/core.hpp: validate_method_parameter", "include/boost/openmethod/interop/std_shared_ptr.hpp: validate_method_parameter"]}
{"id": "C62", "title": "Classes need to be polymorphic only where static_cast is impossible", "statement": "The casts of virtual arguments use static_cast whenever the language allows it, so that documented overriders are accepted for classes without virtual functions, unless a virtual base intervenes.", "quantifier": "all class hierarchies, all ways of passing virtual arguments", "why_tests_cant": "The condition of the cast is a template that can be instantiated with the wrong types without visible effect as long as classes are polymorphic.", "anchors": ["include/boost/openmethod/core.hpp: requires_dynamic_cast, optimal_cast", "include/boost/openmethod/interop/std_unique_ptr.hpp: cast", "include/boost/openmethod/interop/std_shared_ptr.hpp: cast"]}
{"id": "C63", "title": "Declarations determine the outcome of calls", "statement": "If the compiler accepts the declarations of classes, methods and overriders, and the static objects are constructed in any order, possibly among those of modules that are unloaded before, then initialize succeeds exactly if the classes used in virtual parameters and covariant return types are listed in use_classes, and each call has the outcome that the documentation gives for the parameter types as they are written and for the C++ inheritance of the classes of the arguments; the selected overrider receives the arguments.", "quantifier": "all programs, all class hierarchies, all orders of static construction, deferred or static type ids, all arguments", "why_tests_cant": "A test is one program with the order of construction chosen by one linker.", "anchors": ["include/boost/openmethod/core.hpp: use_classes, method, override_impl, thunk", "include/boost/openmethod/initialize.hpp: initialize"]}
{"id": "C64", "title": "Return types of overriders are those of the method or covariant", "statement": "An overrider is accepted with respect to its return type if and only if it returns the same type as the method, or a covariant one: a reference, pointer, smart pointer or virtual_ptr of the same form to a class that has the class of the method as an unambiguous base. The records then name these classes, and the caller of the method receives the object that the overrider returned.", "quantifier": "all class hierarchies, all return types, all results", "why_tests_cant": "A test exercises one pair of types; what an implicit conversion accepts depends on the forms of both types and on the inheritance between the classes.", "anchors": ["include/boost/openmethod/core.hpp: override (requirements), thunk::fn, method::resolve_type_ids, override_impl::resolve_type_ids"]}
{"id": "C65", "title": "Programs execute as documented", "statement": "If the compiler accepts a program, its static objects are constructed in any order, initialize succeeds, and functions and overriders call methods and next with arguments of the right types, then the program runs exactly as the documentation says: each call and each use of next runs the overrider that the rules choose on the declared parameter types, with the objects that were passed, and gives the caller the object that it returned; has_next tells if there is a next overrider; and the program never reaches undefined behaviour nor a failed cast.", "quantifier": "all programs, all hierarchies, all code of overriders including nested and recursive calls, exceptions and shared state, all executions", "why_tests_cant": "A test follows one execution of one program; the claim is about overriders that call methods and next to any depth.", "anchors": ["include/boost/openmethod/core.hpp: method::operator(), next, has_next, thunk::fn", "include/boost/openmethod/initialize.hpp: initialize"]}
{"id": "C66", "title": "Macros reach the method that overload resolution selects", "statement": "A call by the name of a method declared with BOOST_OPENMETHOD, and an overrider added by this name with BOOST_OPENMETHOD_OVERRIDE, reach the method that overload resolution selects among ordinary functions with the parameters of the methods of that name; an overrider is accepted if and only if its parameters are as documented for this method.", "quantifier": "all sets of methods of the same name, all argument types, all hierarchies", "why_tests_cant": "A test compiles one set of overloads; programs that are rejected are hard to test at all.", "anchors": ["include/boost/openmethod/macros.hpp: BOOST_OPENMETHOD, BOOST_OPENMETHOD_DETAIL_LOCATE_METHOD, enable_forwarder", "doc/modules/ROOT/pages/BOOST_OPENMETHOD.adoc", "doc/modules/ROOT/pages/BOOST_OPENMETHOD_OVERRIDE.adoc"]}
{"id": "C67", "title": "Ownership is preserved by calls", "statement": "In programs that pass objects to methods by reference, by virtual_ptr and by std::shared_ptr, boost::intrusive_ptr and std::unique_ptr, every object is destroyed exactly once, when its last owner disappears, and never used, copied or deleted afterwards, whether overriders return, throw or are not found, and whether casts succeed or fail. An overrider receives the objects that were passed; after the call, variables that were moved are empty and the others unchanged.", "quantifier": "all programs that respect the types of their variables, all nested calls, all results, exceptions and failed casts", "why_tests_cant": "Leaks and double deletions occur on rare paths, such as a cast that throws after another argument was moved; a test follows one path.", "anchors": ["include/boost/openmethod/core.hpp: method::operator(), thunk::fn, parameter_traits, smart virtual_ptr::cast", "include/boost/openmethod/interop/std_unique_ptr.hpp: virtual_traits::cast", "include/boost/openmethod/interop/std_shared_ptr.hpp: virtual_traits::cast", "include/boost/openmethod/interop/boost_intrusive_ptr.hpp: virtual_traits::cast"]}
{"id": "C68", "title": "Numbers in messages and traces are written correctly", "statement": "Sizes are written by their decimal numerals and addresses by their hexadecimal ones, without superfluous zeros and within the bounds of the character arrays; rflush aligns numbers to the right in columns; sets of bits are written with the highest bit first; nothing is written if the stream is off.", "quantifier": "all 64-bit values, all widths, all sets of bits, all previous contents of the stream", "why_tests_cant": "The array for a decimal number has exactly the size of the largest one: a test would have to print a number of 20 digits.", "anchors": ["include/boost/openmethod/detail/ostdstream.hpp: operator<<", "include/boost/openmethod/initialize.hpp: operator<< (rflush, dynamic_bitset)"]}
{"id": "C69", "title": "A virtual pointer can be made from, or assigned, exactly what is documented", "statement": "A virtual_ptr can be initialized with, or assigned, exactly the references, pointers, smart pointers and virtual pointers that the documentation permits; no use of its constructors and assignment operators is ambiguous; const is not lost and the class is always a derived one; a v-table is looked up exactly if the argument does not have one; the argument is moved from exactly if it is a non-const rvalue and the virtual pointer owns the object.", "quantifier": "all class hierarchies, polymorphic or not, all kinds of virtual pointers, all registries, all argument types and value categories; initialization, direct initialization and assignment", "why_tests_cant": "The tests contain some forty static assertions about two classes that are both polymorphic or both not. The overloads interact: five or more candidates for each kind of argument, with different constraints.", "anchors": ["include/boost/openmethod/core.hpp: virtual_ptr"]}
{"id": "C70", "title": "Virtual pointers whose type is deduced have the right type and v-table", "statement": "final_virtual_ptr accepts references to objects and smart pointers, and returns a virtual pointer of the corresponding type, with the v-table of the static class; so do make_shared_virtual and make_unique_virtual. virtual_ptr(e), with a deduced type, is accepted if the virtual pointer of the type of e can be constructed from e; it has that type and the default registry, unless e is a virtual pointer.", "quantifier": "all class hierarchies, all registries, all argument types and value categories", "why_tests_cant": "The tests use lvalue objects and rvalue smart pointers only; reference collapsing, deduction guides and two constructor templates interact for the other categories.", "anchors": ["include/boost/openmethod/core.hpp: final_virtual_ptr", "include/boost/openmethod/core.hpp: virtual_ptr"]}
{"id": "C71", "title": "Every accepted statement gives a virtual pointer the value of its operand", "statement": "After a statement that the compiler accepts and that initializes or assigns a virtual pointer, of any kind, from an object, a pointer, a smart pointer, a virtual pointer or nullptr, or with final_virtual_ptr, the virtual pointer designates the object of the operand and the v-table of its dynamic class; a moved virtual pointer is null if the target owns the object; no other virtual pointer has changed; there is no undefined behaviour. At any time, all virtual pointers can be used in calls in place of their objects.", "quantifier": "all hierarchies and registered programs, all sequences of statements, all types of virtual pointers, operands and value categories, with or without indirect v-table pointers", "why_tests_cant": "The overload that is selected depends on the type of the operand, and what it does on run-time values, including the temporaries made by implicit conversions; the tests check single statements.", "anchors": ["include/boost/openmethod/core.hpp: virtual_ptr", "include/boost/openmethod/core.hpp: final_virtual_ptr"]}
{"id": "C72", "title": "Casts of virtual pointers are accepted when the language permits them, and keep the object and its v-table", "statement": "x.cast<Other>() is accepted exactly if Other is a base or a derived class of the class of x, const is not removed, the language has a static_cast or dynamic_cast between the classes, and x is a non-const rvalue if it contains a std::unique_ptr. If the object is an Other, the result designates it and the v-table of its dynamic class, whatever the sequence of statements and casts before; otherwise it is null (std::shared_ptr) or std::bad_cast is thrown and nothing changes, unless static_cast is used. The source is released only if it contains a std::unique_ptr, or a std::shared_ptr since C++20, and is an rvalue. There is no undefined behaviour, and all virtual pointers remain consistent.", "quantifier": "all hierarchies and registered programs, all sequences of statements and casts, all kinds of virtual pointers, classes and value categories", "why_tests_cant": "Which cast is used depends on virtual and ambiguous inheritance and on the kind of pointer; the tests cast a few pointers between two classes, and never null ones or ones that have been moved from.", "anchors": ["include/boost/openmethod/core.hpp: virtual_ptr::cast", "include/boost/openmethod/core.hpp: optimal_cast", "include/boost/openmethod/interop/std_unique_ptr.hpp: virtual_traits::cast", "include/boost/openmethod/interop/std_shared_ptr.hpp: virtual_traits::cast"]}
{"id": "C73", "title": "Copies of objects with inplace_vptr, and assignments to them, have the v-table pointers of their class", "statement": "If an object of a class with inplace_vptr mixins is constructed as a copy of an object, or of a base of an object, its v-table pointers designate its class once it exists, and in the body of each copy constructor the class of that constructor. If an object, or a base of an object, is assigned to an object, or to a base of it, the v-table pointers of the latter still designate its class.", "quantifier": "all hierarchies (multiple, repeated and virtual inheritance), all sources and targets, all combinations of implicit and user-written copy constructors and assignments", "why_tests_cant": "No test copies an object with an embedded v-table pointer; what happens depends on which classes, of an arbitrary hierarchy, have user-written copy constructors, and on the dynamic class of the source.", "anchors": ["include/boost/openmethod/inplace_vptr.hpp: inplace_vptr_base", "include/boost/openmethod/inplace_vptr.hpp: inplace_vptr_derived"]}
{"id": "C74", "title": "Programs written with the macros run as documented", "statement": "In a program that is written with BOOST_OPENMETHOD and BOOST_OPENMETHOD_OVERRIDE, and that the compiler accepts, each overrider is added to the method that overload resolution selects among those of its name, and each call by name calls the method that overload resolution selects. Calls have the documented outcome, and the program runs as the documentation says.", "quantifier": "all class hierarchies, all lists of methods (with overloaded names), overriders and calls, all types of parameters of the model, all orders of construction of the static objects, all programs that respect the contract of C65", "why_tests_cant": "Tests are fixed programs. What a macro selects depends on the types of all the methods of the same name, and the effect of a wrong choice is only visible through registration, initialization, dispatch and casts together.", "anchors": ["include/boost/openmethod/macros.hpp: BOOST_OPENMETHOD", "include/boost/openmethod/macros.hpp: BOOST_OPENMETHOD_OVERRIDE", "include/boost/openmethod/core.hpp: method"]}
{"id": "C75", "title": "Overriders get the object, whatever the form of their parameters", "statement": "If the compiler accepts an overrider for a parameter marked with virtual_, and initialize accepts its class, then a call that selects the overrider hands it the object, in the form that the overrider requires: not a null pointer, a dangling reference, an additional owner or a pointer to an object without owner, and without throwing.", "quantifier": "all class hierarchies, all types of parameters of the model in the method and the overrider (references, pointers, smart pointers and virtual_ptrs, by value or by reference), with and without C++20", "why_tests_cant": "Tests use overriders of the documented forms. Which other combinations compile, and what the casts then do, depends on the two types and on the hierarchy between the two classes; a cast may compile and only misbehave when the overrider is called.", "anchors": ["include/boost/openmethod/core.hpp: virtual_traits", "include/boost/openmethod/core.hpp: optimal_cast", "include/boost/openmethod/interop/std_shared_ptr.hpp: virtual_traits", "include/boost/openmethod/interop/std_unique_ptr.hpp: virtual_traits", "include/boost/openmethod/interop/boost_intrusive_ptr.hpp: virtual_traits"]}
{"id": "C76", "title": "Virtual pointers are equal if and only if they point to the same object", "statement": "If the compiler accepts a comparison of two virtual_ptrs which have been given values, then == is true if and only if both are null or both point to the same object, and != is its negation. Comparisons do not depend on the order of the operands, and virtual pointers that are equal to the same one are equal.", "quantifier": "all class hierarchies, with virtual and repeated inheritance, all types of virtual_ptr of both operands, all values", "why_tests_cant": "Tests compare pointers of the same type, or a pointer to a class with a pointer to its only base. What == compares depends on the classes of both operands and on the hierarchy between them and the complete object.", "anchors": ["include/boost/openmethod/core.hpp: operator==", "include/boost/openmethod/core.hpp: operator!=", "include/boost/openmethod/core.hpp: virtual_ptr::pointer"]}
{"id": "C77", "title": "Registries without a vptr policy dispatch as those with vptr_map", "statement": "A registry that has no vptr policy, as with static_rtti, can be used with virtual_ptrs made by final_virtual_ptr and with objects that embed their v-table pointers. initialize succeeds or fails as it does in the same registry with vptr_map, with the same report, and leaves the same state apart from the map, after any sequence of calls to initialize and finalize. A call whose virtual arguments are such virtual_ptrs, copies, conversions and casts of them, or such objects, has the result that the call with the objects has in a registry with vptr_map; with indirect_vptr also when they were made before the last initialize.", "quantifier": "all programs in which classes have one static_vptr each, all earlier states of both registries, all methods and arguments, with and without runtime_checks and indirect_vptr", "why_tests_cant": "test_static_rtti.cpp has one method with one virtual parameter and two classes, and calls initialize once.", "anchors": ["include/boost/openmethod/policies/static_rtti.hpp", "include/boost/openmethod/initialize.hpp: write_global_data", "include/boost/openmethod/core.hpp: final_virtual_ptr", "include/boost/openmethod/core.hpp: acquire_vptr", "test/test_static_rtti.cpp"]}
{"id": "C78", "title": "Inconsistent definitions of default_registry are detected", "statement": "initialize reports odr_violation if and only if translation units of the program, or of the shared libraries that are loaded, define default_registry differently, i.e. with and without runtime_checks. This holds for default_registry, and for indirect_registry, whose definition depends on the same macro.", "quantifier": "all programs and libraries with any translation units, all sequences in which libraries are loaded and unloaded", "why_tests_cant": "mix_release_debug has two translation units linked together. Libraries can be loaded and unloaded in any order, and each adds any number of units.", "anchors": ["include/boost/openmethod/preamble.hpp: odr_check", "include/boost/openmethod/default_registry.hpp", "include/boost/openmethod/initialize.hpp: initialize", "test/mix_release_debug"]}
{"id": "C79", "title": "Tracing only adds output, and finds the culprit", "statement": "The trace option changes nothing in what initialize does: the registry, the report and the errors are the same with and without it. Nothing is written if the option is not passed, or if trace::on is false; from_env sets it if and only if BOOST_OPENMETHOD_TRACE is \"1\". With the option on, the trace names only types, methods and overriders that are registered; if initialize succeeds it names all of them, and ends with the figures of the report; if initialize fails because a class is not registered, the trace designates the class record, the method or the overrider that mentions it.", "quantifier": "all programs, all configurations of the registry, all states before initialize, all values of the environment variable", "why_tests_cant": "The trace is produced by code interleaved with each step of initialize, including its error paths and the evaluation of expressions that only the trace needs; the tests never look at it, and compare no run with trace to one without.", "anchors": ["include/boost/openmethod/preamble.hpp: trace", "include/boost/openmethod/initialize.hpp: trace_stream", "include/boost/openmethod/initialize.hpp: initialize", "include/boost/openmethod/policies/fast_perfect_hash.hpp: initialize"]}
{"id": "C80", "title": "Options passed to initialize take effect", "statement": "The objects passed to initialize determine its options, in whatever way they are passed (as temporary objects, variables, or constants), and in any order: the rules of N2216 are applied if and only if an n2216 object is passed, and a trace is written if and only if a trace object is passed that is on. Objects of other types have no effect. The call compiles if there is at most one trace object, and none without an output policy.", "quantifier": "all lists of arguments, all programs, configurations of the registry and states before initialize", "why_tests_cant": "The tests pass options as temporary objects only.", "anchors": ["include/boost/openmethod/initialize.hpp: initialize", "include/boost/openmethod/initialize.hpp: has_option", "include/boost/openmethod/policies/fast_perfect_hash.hpp: initialize", "include/boost/openmethod/preamble.hpp: n2216"]}
{"id": "C81", "title": "Macros work across namespaces", "statement": "An overrider declared with the macros in any namespace is added to the method of the same name, declared before in any namespace, that can be called with the same arguments, if there is exactly one. Calls by name from the same place reach the same method. Overriders are put in containers of the current namespace, by which they can be called.", "quantifier": "all namespaces of methods, classes, overriders and calls, all using directives and declarations, all methods of the same name, all parameter types, all class hierarchies", "why_tests_cant": "There is one test with namespaces: the method is in the global namespace, and overriders are in namespaces of classes. The example with using directives is not built.", "anchors": ["include/boost/openmethod/macros.hpp: BOOST_OPENMETHOD", "include/boost/openmethod/macros.hpp: BOOST_OPENMETHOD_OVERRIDE", "include/boost/openmethod/macros.hpp: BOOST_OPENMETHOD_DETAIL_LOCATE_METHOD", "doc/modules/ROOT/pages/namespaces.adoc"]}
{"id": "C82", "title": "The hash works on targets of any word size", "statement": "On targets where pointers and std::size_t have 32 bits or more, with less than one hundred million classes, the search for hash factors never overflows nor accesses a bucket that does not exist. When it succeeds, distinct registered type ids have distinct hash values, which are indices of buckets; with runtime checks, hashing detects all the type ids that are not registered, and only those; the number of buckets is linear in the number of classes. When it fails, 400000 factors were tried.", "quantifier": "all word sizes of 32 bits or more, all sequences of random factors, all sets of type ids, all previous contents of the tables", "why_tests_cant": "Tests run on 64-bit targets, with the type ids that the linker assigned.", "anchors": ["include/boost/openmethod/policies/fast_perfect_hash.hpp: initialize", "include/boost/openmethod/policies/fast_perfect_hash.hpp: hash", "include/boost/openmethod/policies/fast_perfect_hash.hpp: check"]}
{"id": "C83", "title": "Calls take constant time", "statement": "The number of variables that a call reads to select a function depends only on the policies of the registry, on the number of virtual arguments, and on which of them are virtual_ptrs. It does not depend on the number of classes, bases, methods and overriders, nor on previous initializations. With one virtual_ptr argument and no runtime checks, the call reads the slot of the method and one element of the v-table, as documented. Making a virtual_ptr from an object also takes a fixed number of reads. If an error is detected, the call does not read more.", "quantifier": "all policies, all registries in all states that can be reached, all methods and arguments", "why_tests_cant": "Benchmarks measure a few programs; a cost that grows with the number of classes may only show in programs larger than those.", "anchors": ["include/boost/openmethod/core.hpp: resolve_uni", "include/boost/openmethod/core.hpp: resolve_multi_first", "include/boost/openmethod/core.hpp: resolve_multi_next", "include/boost/openmethod/core.hpp: acquire_vptr", "include/boost/openmethod/policies/vptr_vector.hpp: dynamic_vptr", "include/boost/openmethod/policies/fast_perfect_hash.hpp: hash", "doc/modules/ROOT/pages/performance.adoc"]}
{"id": "C84", "title": "Running out of memory in initialize does not damage a working registry", "statement": "If an allocation fails in initialize, and std::bad_alloc is thrown, then the calls that were possible before still have the same outcome: the tables in use are not changed, no v-table pointer refers to tables that are destroyed, and the slots, strides and hash factors are those of the tables in use. When memory is available again, initialize has the same effect as if the failure had not happened.", "quantifier": "all registries in all states that can be reached, all registrations, all policies, every allocation made by initialize, with or without trace", "why_tests_cant": "Tests do not make allocations fail; there are as many places to fail as allocations, and the effect depends on what was registered before and after.", "anchors": ["include/boost/openmethod/initialize.hpp: write_global_data", "include/boost/openmethod/policies/fast_perfect_hash.hpp: initialize", "include/boost/openmethod/policies/vptr_vector.hpp: initialize", "include/boost/openmethod/policies/vptr_map.hpp: initialize"]}
{"id": "C85", "title": "Threads that use registries do not interfere", "statement": "Any number of threads can call methods, construct virtual_ptrs, and use next and has_next in the same initialized registries, while others initialize, use and finalize their own registries: there is no data race, no operation reads released or unset memory, and each operation has the result that it has when its thread is executed alone. The only condition is that a registry is not used by other threads while a thread initializes or finalizes it.", "quantifier": "all numbers of threads, all sequences of operations (also depending on previous results), all registrations and policies, all interleavings of the accesses to memory", "why_tests_cant": "The test suite is single threaded; interleavings are too many to enumerate, and data races are not visible in results.", "anchors": ["include/boost/openmethod/core.hpp: method::operator(), method::resolve, acquire_vptr, has_next", "include/boost/openmethod/initialize.hpp: write_global_data, initialize, finalize"]}
{"id": "C86", "title": "Any classes can be registered so that calls are right", "statement": "For any set of class records there is an order of registration, with the same records, for which the library accepts the same programs and calls have the documented outcome. Registering all classes a second time, in any order, after the first time, has the same effect, and so has executing the loop of augment_classes that collects the bases twice.", "quantifier": "all valid programs, all orders of registration, all platforms, all calls with one virtual parameter or contiguous virtual parameters (for several virtual parameters: when dominance is transitive among the applicable overriders)", "why_tests_cant": "Speaks of all inheritance graphs and all orders of registration.", "anchors": ["include/boost/openmethod/initialize.hpp: augment_classes, collect_transitive_bases, assign_lattice_slots"]}
{"id": "C87", "title": "Sizes, strides and indexes do not overflow", "statement": "If the number of words of the dispatch data is a value of std::size_t, no size, stride, counter or index computed by initialize overflows, slots are less than the number of virtual parameters, and in calls neither the products of indexes and strides overflow, nor does the pointer into the dispatch table leave the vector at any time.", "quantifier": "all valid programs, all platforms, any number of values of std::size_t, all calls without undefined behaviour of another origin", "why_tests_cant": "Tables large enough to overflow cannot be built in a test, and a temporary pointer out of bounds is not observable.", "anchors": ["include/boost/openmethod/initialize.hpp: build_dispatch_tables, accumulate, assign_slots, write_global_data", "include/boost/openmethod/core.hpp: resolve_multi_first, resolve_multi_next"]}
{"id": "C88", "title": "Descriptions tell errors apart", "statement": "The description of an error, written by the default error handler or contained in the exception thrown by throw_error_handler, tells which error happened: errors with the same description have the same class and the same contents, and the text left by several errors determines all of them.", "quantifier": "all errors, all names of types, all sequences of errors, all states of the registry and of the error handler", "why_tests_cant": "Tests compare the descriptions of a few errors; that no two errors are confused is about all pairs of texts.", "anchors": ["include/boost/openmethod/preamble.hpp: write, rtti::defaults::type_name", "include/boost/openmethod/policies/fast_perfect_hash.hpp: search_error::write", "include/boost/openmethod/policies/default_error_handler.hpp: default_handler", "include/boost/openmethod/policies/throw_error_handler.hpp: error"]}
{"id": "C89", "title": "Three local corrections make all calls right", "statement": "If the loop of augment_classes that collects bases is executed twice, overriders are compared with all candidates when the dominated ones are removed, and resolve_multi_next does not count parameters that are not virtual, then every call does what the documentation says, in all programs that the library accepts, and the same programs are accepted. No two of these corrections are enough.", "quantifier": "all valid programs, all registration orders, all hierarchies, all positions of virtual parameters, all arguments, all sets of corrections", "why_tests_cant": "Tests can show that a correction repairs a program, not that no other program is wrong.", "anchors": ["include/boost/openmethod/initialize.hpp: augment_classes, build_dispatch_table, select_dominant_overriders", "include/boost/openmethod/core.hpp: resolve_multi_next"]}
{"id": "C90", "title": "The stored next is right whenever one pointer can be", "statement": "next is one pointer for each overrider. If there is a function that is right as next of an overrider for all the calls that run the overrider, in the sense that it does what the call would do without the overrider, then the function that initialize stores is right for all these calls. This is so exactly when all these calls would do the same thing without the overrider; there are programs in which they would not, and in which no function is right.", "quantifier": "all valid programs in which being more specific is transitive among the applicable overriders, all overriders that a call can run, all functions that could be stored, all arguments", "why_tests_cant": "The comparison is with all functions that could be stored, and over all argument tuples that run the overrider.", "anchors": ["include/boost/openmethod/core.hpp: method::next", "include/boost/openmethod/initialize.hpp: build_dispatch_table, write_global_data"]}
{"id": "C91", "title": "Methods can be called while a library is loaded", "statement": "While a thread loads or unloads libraries that register classes, methods and overriders, other threads can call methods of the same registry: there is no data race, and until the registry is initialized again, each operation has the result it has without the registrations. More generally, threads that call methods, load libraries, initialize and finalize registries and set error handlers have no data race, and the results they have when executed alone, if what one changes (tables, lists, error handler of a registry) is not used by another. The condition is needed: two threads that load libraries can lose a class, and there are data races between loading and initialize, and between setting the error handler and reporting an error.", "quantifier": "all numbers of threads, all strategies of the threads, all interleavings of their accesses, all registries and settings, all initial states", "why_tests_cant": "There are infinitely many interleavings, and tests observe few of them; a data race often has no visible effect.", "anchors": ["include/boost/openmethod/core.hpp: use_class_aux, method, override_impl", "include/boost/openmethod/detail/static_list.hpp: push_back, remove", "include/boost/openmethod/initialize.hpp: initialize", "include/boost/openmethod/policies/default_error_handler.hpp: set, error"]}
{"id": "C92", "title": "Null arguments passed to next", "statement": "When an overrider calls next with null pointers as virtual arguments, and next is an overrider, that overrider gets null pointers of its own types, if the arguments are pointers or shared_ptrs, or intrusive_ptrs to classes that do not inherit virtually from the classes of the method. In all other cases (references, unique_ptrs, intrusive_ptrs with virtual inheritance), a null pointer is dereferenced. A call with a null argument for a virtual_ parameter dereferences it too.", "quantifier": "all class hierarchies, methods, overriders, lists of null arguments of any kinds", "why_tests_cant": "Dereferencing a null pointer may appear to work; the result depends on the kind of pointer and on the hierarchy.", "anchors": ["include/boost/openmethod/core.hpp: virtual_traits, method::thunk", "include/boost/openmethod/interop/std_shared_ptr.hpp: cast", "include/boost/openmethod/interop/boost_intrusive_ptr.hpp: cast", "include/boost/openmethod/interop/std_unique_ptr.hpp: cast"]}
{"id": "C93", "title": "A readers-writer lock for each registry makes all operations safe", "statement": "Any number of threads call methods, create virtual_ptrs, use next, load and unload libraries, initialize and finalize registries, and set error handlers. If each registry has a readers-writer lock, held in shared mode for operations that only use the registry and in exclusive mode for all others, and if the operations have no undefined behaviour when executed one after the other, then there is no data race, the results are those of the operations executed one after the other in some order, the registries are as after them, and the threads are never all blocked.", "quantifier": "all numbers of threads, all strategies, all interleavings of accesses, all registries, settings and initial states", "why_tests_cant": "There are infinitely many interleavings; data races and linearizability cannot be established by observing some of them.", "anchors": ["include/boost/openmethod/core.hpp: method::operator(), use_class_aux, override_impl", "include/boost/openmethod/initialize.hpp: initialize, finalize", "include/boost/openmethod/policies/default_error_handler.hpp: set"]}
{"id": "C94", "title": "Errors reach the error handler as what they are", "statement": "In a registry with default_error_handler, made from another one by adding policies, each error that the library or one of the policies can report reaches the error handler as an alternative of error_variant of its own class.", "quantifier": "all universes of policies, all lists of policies and of their errors, all class hierarchies that contain the error classes of the library, all error classes", "why_tests_cant": "Each registry is a different type with its own error_variant; tests instantiate a few.", "anchors": ["include/boost/openmethod/policies/default_error_handler.hpp: error_variant_aux, error_variant, error", "include/boost/openmethod/policies/fast_perfect_hash.hpp: errors"]}
{"id": "C95", "title": "What the exceptions of throw_error_handler can be caught as", "statement": "The exception thrown for an error by throw_error_handler can be caught as an error of its class and as a std::runtime_error.", "quantifier": "all class hierarchies that contain the error classes of the library, all error classes that derive from openmethod_error, all lists of handlers", "why_tests_cant": "Error classes can be added by policies, with any bases; tests throw a few of the errors of the library.", "anchors": ["include/boost/openmethod/policies/throw_error_handler.hpp: error"]}
{"id": "C96", "title": "One more break makes option n2216 safe and changes nothing else", "statement": "If the loop that compares return types stopped after removing candidate i, as the loop that compares overriders does, initialize with option n2216 would never dereference a null pointer; and it would do exactly what it does now in all programs for which the option is safe now.", "quantifier": "all valid programs, all platforms, all overriders and return types; all calls", "why_tests_cant": "It compares two versions of the code over all programs.", "anchors": ["include/boost/openmethod/initialize.hpp: select_dominant_overriders"]}
{"id": "C97", "title": "Which corrections make option n2216 right", "statement": "Take any of four local corrections: collect bases twice, compare overriders with all candidates, skip non-virtual parameters in resolve_multi_next, stop the comparison of return types after removing candidate i. Option n2216 is safe (C38) and chooses as documented (C39) in all programs if and only if all four are made.", "quantifier": "all sets of corrections, all valid programs, all platforms, all calls", "why_tests_cant": "Sufficiency quantifies over all programs; tests can only show necessity.", "anchors": ["include/boost/openmethod/initialize.hpp: augment_classes, build_dispatch_table, select_dominant_overriders", "include/boost/openmethod/core.hpp: resolve_multi_next"]}
{"id": "C98", "title": "The names declared by the macros do not collide", "statement": "In a translation unit, the declarations of the macros collide (same name, different entity, or an object declared twice) only where a method is given the name of another entity. They never do if no method name ends in a suffix, or begins with the prefix, that the macros use. A pasted name is a reserved identifier exactly when the method name is, or ends in an underscore.", "quantifier": "all sequences of macro uses, all method names, all values of __COUNTER__", "why_tests_cant": "There are infinitely many names and units; a test shows that one unit compiles.", "anchors": ["include/boost/openmethod/macros.hpp: BOOST_OPENMETHOD_GENSYM, BOOST_OPENMETHOD_ID, BOOST_OPENMETHOD_OVERRIDERS, BOOST_OPENMETHOD_GUIDE, BOOST_OPENMETHOD_REGISTER"]}
{"id": "C99", "title": "Which corrections make vptr_vector detect unregistered classes", "statement": "Take any of two local corrections of vptr_vector without a hash: dynamic_vptr reports missing_class for null elements, initialize clears the vector before resizing it. With runtime_checks, calls with objects of unregistered classes report missing_class, for all vptr policies and all histories of the registry, if and only if both are made. Nothing changes for objects of registered classes.", "quantifier": "all sets of corrections, all policies, all valid programs, all histories of initialize and finalize, all calls", "why_tests_cant": "Detection depends on all the previous calls to initialize; tests can only show that a correction is needed.", "anchors": ["include/boost/openmethod/policies/vptr_vector.hpp: initialize, dynamic_vptr"]}
{"id": "C100", "title": "Which corrections make a failed initialize harmless", "statement": "Take any of two corrections: the search for hash factors is made before write_global_data stores anything; the search works on local variables, assigned to the static members when it succeeds. Calls that worked before a failed initialize still work, and dispatch as before, in all registries, if and only if both are made. Then a failed initialize leaves the registry exactly as it was. The corrections change neither what succeeds, nor the resulting state, nor the errors.", "quantifier": "all sets of corrections, all policies, all registrations, all histories of the registry, all calls, all sequences of random numbers", "why_tests_cant": "The search fails rarely and depends on random numbers; that nothing else changes quantifies over all registrations.", "anchors": ["include/boost/openmethod/initialize.hpp: initialize, write_global_data", "include/boost/openmethod/policies/fast_perfect_hash.hpp: initialize"]}
{"id": "C101", "title": "Which corrections give initialize the strong exception guarantee", "statement": "Take any of three corrections: the vptr policy makes its allocations before write_global_data stores anything; the search for hash factors works on local variables; the names for the trace are obtained before the stores. Calls that worked before an allocation failed in initialize still work, and dispatch as before, in all registries, if and only if the three are made. Then initialize is successful, or calls and constructions of virtual_ptrs have the same outcome as before, whether it reports an error or an allocation fails.", "quantifier": "all sets of corrections, all policies, all registrations, all histories of the registry, every allocation made by initialize, all calls", "why_tests_cant": "Tests do not make allocations fail; that each correction is needed, whatever the others, and that no fourth one is, quantifies over all places to fail.", "anchors": ["include/boost/openmethod/initialize.hpp: write_global_data", "include/boost/openmethod/policies/fast_perfect_hash.hpp: initialize", "include/boost/openmethod/policies/vptr_vector.hpp: initialize", "include/boost/openmethod/policies/vptr_map.hpp: initialize"]}
