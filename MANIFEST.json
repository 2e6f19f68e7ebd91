{
 "claims": [
  {
   "property": "C01",
   "status": "proved",
   "theorems": [
    "Sfl.vector_session"
   ],
   "note": "Every sequence of public modifiers on the memory model refines the list operations; returned iterators included."
  },
  {
   "property": "C02",
   "status": "proved",
   "theorems": [
    "Sfl.vector_session"
   ],
   "note": "Same session: for every exception schedule no UB, and memory after destruction equals memory before."
  },
  {
   "property": "C03",
   "status": "proved",
   "theorems": [
    "Sfl.vector_reserve_strong",
    "Sfl.vector_shrinkToFit_strong",
    "Sfl.vector_emplaceBack_strong"
   ],
   "note": "Pointers and all memory unchanged when the operation throws."
  },
  {
   "property": "C04",
   "status": "proved",
   "theorems": [
    "Sfl.vector_basic_guarantee"
   ],
   "note": "After an exception: readable, usable by any further session, destroyed without leak."
  },
  {
   "property": "C05",
   "status": "proved",
   "theorems": [
    "Sfl.vector_newCapacity",
    "Sfl.smallVector_newCapacity",
    "Sfl.vector_newCapacity64_eq",
    "Sfl.smallVector_newCapacity64_eq",
    "Sfl.vector_length_error"
   ],
   "note": "64-bit wrapping arithmetic; for small containers under N <= max_size (example shows it cannot be dropped)."
  },
  {
   "property": "C06",
   "status": "proved",
   "theorems": [
    "Sfl.vector_append_linear"
   ],
   "note": "At most 8*(size+k) constructions and allocations."
  },
  {
   "property": "C07",
   "status": "proved",
   "theorems": [
    "Sfl.vector_alias",
    "Sfl.vector_session"
   ],
   "note": "Arguments that are references to own elements."
  },
  {
   "property": "C08",
   "status": "proved",
   "theorems": [
    "Sfl.vector_reserve_capacity",
    "Sfl.vector_appends_in_place",
    "Sfl.vector_shrinkToFit_capacity"
   ],
   "note": ""
  },
  {
   "property": "C11",
   "status": "proved",
   "theorems": [
    "Sfl.smallVector_no_allocation"
   ],
   "note": ""
  },
  {
   "property": "C12",
   "status": "proved",
   "theorems": [
    "Sfl.smallVector_session"
   ],
   "note": "All N, started default constructed or moved-from."
  },
  {
   "property": "C14",
   "status": "proved",
   "theorems": [
    "Sfl.smallVector_session",
    "Sfl.smallVector_basic_guarantee",
    "Sfl.smallVector_strong"
   ],
   "note": ""
  },
  {
   "property": "C13",
   "status": "partial",
   "theorems": [
    "smallVector_world_session_partial",
    "smallVector_swap_throw"
   ],
   "note": "Programs with any number of small_vectors: copy, move, assignment, swap in all storage combinations. Missing: swap with unequal propagating allocators and throwing element moves, where the property is false; smallVector_swap_throw proves the negation with a concrete program."
  },
  {
   "property": "C39",
   "status": "proved",
   "theorems": [
    "vector_world_session"
   ],
   "note": "All trait combinations, allocators and exception schedules; returning a block to an unequal allocator is undefined behaviour in the model."
  },
  {
   "property": "C41",
   "status": "proved",
   "theorems": [
    "vector_world_session",
    "smallVector_world_session_partial",
    "compactVector_session_partial",
    "segmentedVector_session_partial",
    "segmentedDevector_session_partial",
    "devector_session_partial",
    "devector_assign_copy_partial"
   ],
   "note": "The abstract step for copy assignment keeps the source and makes the target equal; self assignment is the identity."
  },
  {
   "property": "C42",
   "status": "proved",
   "theorems": [
    "vector_move_construct",
    "vector_move_assign",
    "compactVector_move_construct",
    "vector_world_session",
    "segmentedVector_session_partial",
    "segmentedDevector_session_partial",
    "devector_move_construct",
    "devector_assign_move_partial"
   ],
   "note": "The moved-from vector is identical to a default constructed one; vector_session applies to it. A moved-from segmented container is empty and owns a segment. For devector, as far as move assignment is defined (C19)."
  },
  {
   "property": "C09",
   "status": "proved",
   "theorems": [
    "vector_compare",
    "smallVector_compare",
    "staticVector_compare",
    "compactVector_compare",
    "devector_compare",
    "segmentedVector_compare",
    "segmentedDevector_compare",
    "smallFlat_compare",
    "staticFlat_compare",
    "lexicographic_strictWeak"
   ],
   "note": "For all sequence containers and the ordered flat containers: the six operators over memory, after any program with any number of containers. Element comparisons are pure functions."
  },
  {
   "property": "C10",
   "status": "proved",
   "theorems": [
    "vector_eraseIf",
    "smallVector_eraseIf",
    "staticVector_eraseIf",
    "compactVector_eraseIf",
    "segmentedVector_eraseIf",
    "segmentedDevector_eraseIf",
    "devector_eraseIf"
   ],
   "note": "For vector, small_vector, static_vector, compact_vector, segmented_vector, segmented_devector and devector; predicates are pure functions. Also part of the session theorems."
  },
  {
   "property": "C37",
   "status": "proved",
   "theorems": [
    "smallFlat_strong",
    "smallUnord_strong"
   ],
   "note": "Container and memory identical after a failed reallocating insertion, reserve or shrink_to_fit (insert_or_assign not included). Small ordered and unordered flat containers."
  },
  {
   "property": "C15",
   "status": "proved",
   "theorems": [
    "staticVector_session",
    "staticVector_modify"
   ],
   "note": "Programs with any number of static_vectors; N bound, no allocation, no leak for every exception schedule."
  },
  {
   "property": "C28",
   "status": "partial",
   "theorems": [
    "smallFlat_session",
    "smallFlat_sorted",
    "smallFlat_in_order",
    "staticFlat_session",
    "staticFlat_sorted_partial",
    "staticFlat_in_order",
    "staticFlat_assign_unsorted"
   ],
   "note": "All eight ordered containers, any program with any number of containers. Missing: operator=(initializer_list) of the static containers, where the property is false (staticFlat_assign_unsorted)."
  },
  {
   "property": "C29",
   "status": "partial",
   "theorems": [
    "smallFlat_lookup",
    "smallFlat_lookup_partial",
    "smallFlat_count_heterogeneous",
    "staticFlat_lookup",
    "staticFlat_lookup_partial",
    "staticFlat_count_heterogeneous"
   ],
   "note": "Exact answers, nothing changed, logarithmic comparison bounds, for keys of the key type and compatible heterogeneous keys. Missing: heterogeneous count of containers with unique keys when several elements are equivalent, where the property is false (smallFlat_count_heterogeneous)."
  },
  {
   "property": "C30",
   "status": "proved",
   "theorems": [
    "smallFlat_insert",
    "smallFlat_modify",
    "staticFlat_insert",
    "staticFlat_modify"
   ],
   "note": "For the small and static ordered sets and maps in any program."
  },
  {
   "property": "C31",
   "status": "proved",
   "theorems": [
    "smallFlat_map",
    "smallFlat_lookup",
    "smallFlat_modify",
    "staticFlat_map",
    "staticFlat_lookup",
    "staticFlat_modify",
    "smallUnord_map",
    "smallUnord_lookup",
    "smallUnord_modify",
    "staticUnord_map",
    "staticUnord_lookup",
    "staticUnord_modify"
   ],
   "note": "All four kinds of maps in any program, from contents without equal keys (an invariant, C28/C33): every listed operation is the operation of finite maps; at throws exactly for missing keys. operator=(initializer_list) of static maps is not among the operations, see C35."
  },
  {
   "property": "C32",
   "status": "proved",
   "theorems": [
    "smallFlat_session",
    "smallFlat_modify",
    "staticFlat_modify"
   ],
   "note": "For the small and static ordered multisets and multimaps: insertion at one position in order, any hint, aliasing arguments; erase(key) filters."
  },
  {
   "property": "C35",
   "status": "partial",
   "theorems": [
    "staticFlat_assign_partial",
    "staticFlat_assign_unsorted",
    "staticUnord_assign_partial",
    "staticUnord_assign_duplicates"
   ],
   "note": "The property is false: staticFlat_assign_unsorted and staticUnord_assign_duplicates prove the negation with concrete programs. What holds: the container has exactly the elements of the list in their order."
  },
  {
   "property": "C36",
   "status": "partial",
   "theorems": [
    "smallFlat_throw_partial",
    "smallFlat_in_order",
    "smallFlat_insert_throw",
    "staticFlat_throw_partial",
    "staticFlat_insert_throw",
    "smallUnord_throw_partial",
    "smallUnord_in_order",
    "smallUnord_emplace_throw",
    "staticUnord_throw_partial",
    "staticUnord_in_order",
    "staticUnord_emplace_throw"
   ],
   "note": "Holds for elements with nothrow moves and the operations listed in Op.safe (ordered) and Op.careful (unordered). Missing: insertion by const reference into ordered sets and maps, emplace into unordered ones with a throwing equality (and throwing moves), where the property is false (the *_throw witnesses without _partial)."
  },
  {
   "property": "C40",
   "status": "proved",
   "theorems": [
    "vector_construct",
    "smallVector_construct",
    "compactVector_construct",
    "segmentedVector_construct",
    "segmentedDevector_construct",
    "devector_construct",
    "vector_world_session",
    "smallVector_world_session_partial",
    "staticVector_session"
   ],
   "note": "Direct statements for the constructors without source; copy construction through the programs."
  },
  {
   "property": "C33",
   "status": "partial",
   "theorems": [
    "smallUnord_session",
    "smallUnord_distinct",
    "smallUnord_in_order",
    "smallUnord_insert",
    "smallUnord_erase",
    "smallUnord_erase_key_partial",
    "staticUnord_session",
    "staticUnord_distinct_partial",
    "staticUnord_in_order",
    "staticUnord_insert",
    "staticUnord_erase",
    "staticUnord_erase_key_partial"
   ],
   "note": "Proved for the small containers and for all operations of the static ones except operator=(initializer_list), where it is false (staticUnord_assign_duplicates, C35)."
  },
  {
   "property": "C34",
   "status": "partial",
   "theorems": [
    "smallUnord_erase_key_partial",
    "staticUnord_erase_key_partial",
    "smallUnord_erase_alias",
    "staticUnord_erase_alias"
   ],
   "note": "Proved for keys that are not part of the container. The property is false for keys that refer to an element: smallUnord_erase_alias and staticUnord_erase_alias (wrong elements erased, and read of a destroyed object)."
  },
  {
   "property": "C38",
   "status": "proved",
   "theorems": [
    "smallUnord_compare",
    "staticUnord_compare",
    "unord_sameBag"
   ],
   "note": "operator== over memory, as std::is_permutation of libstdc++ computes it, after any program; equal to every element having the same number of equal elements."
  },
  {
   "property": "C16",
   "status": "partial",
   "theorems": [
    "compactVector_session_partial",
    "compactVector_exact_fit",
    "compactVector_modify_partial",
    "compactVector_resize_alias"
   ],
   "note": "capacity == size and the block has exactly size cells in every state of every program; contents as for lists. Missing: resize(n, c[i]) that grows by moving elements, where the contents are wrong (compactVector_resize_alias), and assignments of another size when something may throw (C17)."
  },
  {
   "property": "C17",
   "status": "partial",
   "theorems": [
    "compactVector_session_partial",
    "compactVector_modify_partial",
    "compactVector_assign_throw"
   ],
   "note": "Valid after every exception and all sized deallocations match, for every schedule. Missing: assign and assignment of another number of elements when an element constructor throws, where the code deallocates with the wrong size (compactVector_assign_throw proves it)."
  },
  {
   "property": "C22",
   "status": "proved",
   "theorems": [
    "segIter_laws"
   ],
   "note": "Every segment size, table and position; no step reads the table outside the entries of the layout."
  },
  {
   "property": "C23",
   "status": "proved",
   "theorems": [
    "segFill_slots",
    "segCopyIn_slots",
    "segConstruct_slots",
    "segDestroy_slots",
    "segMoveForward_slots",
    "segMoveBackward_slots",
    "segCopyBetween_slots"
   ],
   "note": "Every alignment with segment boundaries, throwing operations included. Flat to segmented (random access or not), within a container in both directions, between containers."
  },
  {
   "property": "C24",
   "status": "proved",
   "theorems": [
    "segmentedVector_modify",
    "segmentedVector_references",
    "segmentedVector_end",
    "segmentedVector_construct",
    "segmentedVector_session_partial"
   ],
   "note": "Every modifier, segment size, program and exception schedule. swap of unequal propagating allocators is the subject of C26."
  },
  {
   "property": "C25",
   "status": "partial",
   "theorems": [
    "segmentedDevector_session_partial",
    "segmentedDevector_modify_partial",
    "segmentedDevector_references",
    "segmentedDevector_end",
    "segmentedDevector_insert_range_partial",
    "segmentedDevector_insert_range_ub"
   ],
   "note": "All public functions, all exception schedules, aliasing arguments included. Excluded: insert(pos, first, last) with forward iterators in the second half of the container of more than available_front() + size() elements, which computes an iterator outside the storage (segmentedDevector_insert_range_ub)."
  },
  {
   "property": "C26",
   "status": "partial",
   "theorems": [
    "segmentedVector_session_partial",
    "segmentedVector_swap_propagate",
    "segmentedDevector_session_partial",
    "segmentedDevector_swap_propagate"
   ],
   "note": "Both segmented containers: proved for equal allocators; for unequal propagating allocators the property is false (segmentedVector_swap_propagate, segmentedDevector_swap_propagate)."
  },
  {
   "property": "C27",
   "status": "partial",
   "theorems": [
    "segmentedVector_limit_partial",
    "segmentedVector_construct_limit",
    "segmentedVector_exceeds_max_size",
    "segmentedDevector_limit_partial",
    "segmentedDevector_construct_limit",
    "segmentedDevector_exceeds_max_size"
   ],
   "note": "Both segmented containers: holds while the capacity is at most max_size(); the property is false in general (segmentedVector_exceeds_max_size, segmentedDevector_exceeds_max_size)."
  },
  {
   "property": "C18",
   "status": "proved",
   "theorems": [
    "devector_modify",
    "devector_observe",
    "devector_reserve",
    "devector_reached",
    "devector_session_partial"
   ],
   "note": "Every modifier from every valid layout (front space, elements, back space); list result, no undefined behaviour, rest of memory untouched, length_error the only exception. devector_session_partial: programs with any number of devectors."
  },
  {
   "property": "C19",
   "status": "partial",
   "theorems": [
    "devector_assign_move_partial",
    "devector_assign_copy_partial",
    "devector_swap",
    "devector_assign_move_reset",
    "devector_assign_copy_reset"
   ],
   "note": "Proved when the storage of the target is kept, or the target has no free space at the front. Missing: targets with free space at the front whose storage is given up, where the code deallocates the wrong address (devector_assign_move_reset, devector_assign_copy_reset prove it)."
  },
  {
   "property": "C20",
   "status": "partial",
   "theorems": [
    "devector_insert_partial",
    "devector_modify_partial",
    "devector_insert_throw_front",
    "devector_insert_throw_back"
   ],
   "note": "Every layout, position, count and exception schedule outside the layouts Devector.Faulty. Missing: those layouts, where scope guards destroy the wrong elements (the two throw theorems prove the negation)."
  },
  {
   "property": "C21",
   "status": "partial",
   "theorems": [
    "devector_alias_partial",
    "devector_insert_alias",
    "devector_resize_alias"
   ],
   "note": "Proved when no element is shifted and no storage is allocated. Missing: insertion between elements and growth, where the property is false (devector_insert_alias, devector_resize_alias)."
  },
  {
   "property": "C43",
   "status": "proved",
   "theorems": [
    "vector_access",
    "smallVector_access",
    "staticVector_access",
    "compactVector_access",
    "devector_access",
    "segmentedVector_access",
    "segmentedDevector_access",
    "smallFlat_access",
    "staticFlat_access",
    "smallUnord_access",
    "staticUnord_access"
   ],
   "note": "Iteration in both directions, nth, index_of and the checked and unchecked element access, after any program. Nothing in memory changes."
  },
  {
   "property": "C44",
   "status": "partial",
   "theorems": [
    "vector_no_spurious",
    "smallVector_no_spurious",
    "compactVector_no_spurious",
    "smallFlat_no_spurious",
    "smallUnord_no_spurious",
    "staticVector_no_spurious",
    "staticFlat_no_spurious",
    "staticUnord_no_spurious",
    "segmentedVector_no_spurious",
    "devector_no_spurious_partial",
    "segmentedDevector_no_spurious_partial",
    "segmentedDevector_length_error",
    "devector_length_error"
   ],
   "note": "Proved for all containers but the double-ended ones; those throw nothing but length_error, in the cases listed in the theorems. Missing for them: a push or insertion throws length_error only beyond max_size(), which is false (devector_length_error, segmentedDevector_length_error). Copies of a segmented container that already exceeds max_size() (C27) may throw."
  },
  {
   "property": "C45",
   "status": "partial",
   "theorems": [
    "vector_ends",
    "smallVector_ends",
    "segmentedVector_ends",
    "segmentedDevector_ends",
    "devector_ends_partial",
    "devector_ends_quadratic"
   ],
   "note": "Proved for all containers but devector. Missing for devector: programs that push at both ends and pop, for which the claim is false (devector_ends_quadratic)."
  },
  {
   "property": "C46",
   "status": "partial",
   "theorems": [
    "vector_work_partial",
    "smallVector_work_partial",
    "devector_work_partial",
    "vector_insert_input",
    "smallVector_insert_input",
    "devector_insert_input",
    "vector_insert_input_quadratic",
    "smallVector_insert_input_quadratic",
    "devector_insert_input_quadratic",
    "staticVector_work_partial",
    "staticVector_insert_input",
    "staticVector_insert_input_quadratic",
    "segmentedVector_work_partial",
    "segmentedVector_insert_input",
    "segmentedVector_insert_input_quadratic",
    "compactVector_work_partial",
    "compactVector_insert_input",
    "compactVector_assign_input",
    "compactVector_construct_work_partial",
    "compactVector_input_quadratic",
    "segmentedDevector_work_partial",
    "segmentedDevector_insert_input",
    "segmentedDevector_insert_input_quadratic"
   ],
   "note": "Proved for all sequence containers except insert(pos, first, last) with input iterators, for which it is false (a product bound is proved)."
  },
  {
   "property": "C47",
   "status": "partial",
   "theorems": [
    "vector_storage",
    "smallVector_storage",
    "devector_storage_partial",
    "devector_storage_unbounded",
    "smallFlat_storage",
    "smallUnord_storage",
    "segmentedVector_storage",
    "segmentedDevector_storage_partial",
    "segmentedDevector_storage_unbounded",
    "segmentedDevector_queue_length_error"
   ],
   "note": "Proved for vector, small_vector, segmented_vector and the small flat containers. For devector proved for programs without resize_front, resize_back, reserve_front, reserve_back; false with them. For segmented_devector proved for each modifier; false for programs (a queue grows without bound, although it has at most one element). static_vector has a fixed capacity, and that of compact_vector is its size (C16)."
  },
  {
   "property": "C48",
   "status": "partial",
   "theorems": [
    "smallFlat_lookup_work",
    "staticFlat_lookup_work",
    "smallUnord_lookup_work",
    "staticUnord_lookup_work",
    "smallFlat_work_partial",
    "staticFlat_work_partial",
    "smallUnord_work_partial",
    "staticUnord_work_partial",
    "smallFlat_eraseIf_quadratic",
    "staticFlat_eraseIf_quadratic",
    "smallFlat_range_quadratic",
    "smallFlat_assign_quadratic",
    "staticFlat_range_quadratic",
    "smallUnord_range_quadratic",
    "smallUnord_assign_quadratic",
    "staticUnord_range_quadratic",
    "smallUnord_insert_linear",
    "staticUnord_insert_linear"
   ],
   "note": "Lookups and single modifiers proved. False for erase_if of ordered containers, range construction and list assignment (quadratic), and insertion into unordered sets and maps (linear); the true bounds are proved."
  },
  {
   "property": "C49",
   "status": "proved",
   "theorems": [
    "smallVector_storage_kept",
    "smallVector_references_kept",
    "smallVector_capacity_moved",
    "vector_storage_kept",
    "vector_references_kept",
    "vector_capacity_moved",
    "staticVector_storage_kept",
    "staticVector_references_kept",
    "devector_storage_kept",
    "devector_push_kept",
    "devector_capacity_moved",
    "devector_reserve_references"
   ],
   "note": "For devector the condition is room at the end at which the operation works (Dq.Op.stays). devector_reserve_references refutes the documentation of reserve_front and reserve_back, which promises valid references after a reallocation."
  },
  {
   "property": "C50",
   "status": "proved",
   "theorems": [
    "vector_whole_cost",
    "smallVector_whole_cost",
    "compactVector_whole_cost",
    "devector_whole_cost",
    "staticVector_whole_cost",
    "segmentedVector_whole_cost",
    "segmentedDevector_whole_cost",
    "smallFlat_whole_cost",
    "staticFlat_whole_cost",
    "smallUnord_whole_cost",
    "staticUnord_whole_cost",
    "smallVector_move_linear"
   ],
   "note": "The prices are numbers in each theorem. Constructors of flat containers are not included (C48). smallVector_move_linear refutes the documentation of small_vector's move constructor (linear in N)."
  },
  {
   "property": "C51",
   "status": "partial",
   "theorems": [
    "smallFlat_comparator_session_partial",
    "smallFlat_comparator_sorted",
    "smallFlat_comparator_lookup",
    "staticFlat_comparator_session_partial",
    "staticFlat_comparator_lookup",
    "smallUnord_comparator_session_partial",
    "smallUnord_comparator_lookup",
    "staticUnord_comparator_session_partial",
    "smallFlat_comparator_throw",
    "smallUnord_comparator_throw"
   ],
   "note": "Proved for every container that has not been moved from and has not seen an exception of an operation without a promise. smallFlat_comparator_throw and smallUnord_comparator_throw: a copy assignment that throws leaves the old elements with the new comparator."
  },
  {
   "property": "C52",
   "status": "partial",
   "theorems": [
    "vector_self_move_session",
    "smallVector_self_move_session",
    "staticVector_self_move_session",
    "compactVector_self_move_session",
    "segmentedVector_self_move_session",
    "segmentedDevector_self_move_session",
    "devector_self_move_session_partial",
    "devector_self_move_partial",
    "devector_self_move_ub",
    "smallFlat_self_move_session",
    "staticFlat_self_move_session",
    "smallUnord_self_move_session",
    "staticUnord_self_move_session"
   ],
   "note": "Proved for all containers except devectors with free space in front of the elements, for which devector_self_move_ub proves undefined behaviour."
  },
  {
   "property": "C53",
   "status": "proved",
   "theorems": [
    "compactVector_newSize",
    "devector_additional",
    "devector_grow",
    "devector_reserve64",
    "segmented_segments",
    "segmentedDevector_segments_front",
    "segmented_table",
    "devector_sizeSub64_eq",
    "segVec_sizeSub64_eq",
    "devector_additionalFront64_eq",
    "devector_additionalBack64_eq",
    "devector_growStorageFront64_eq",
    "devector_growStorageBack64_eq",
    "segmented_segments64_eq",
    "segmented_table64_eq"
   ],
   "note": "64-bit wrapping arithmetic. The hypothesis capacity() <= max_size() holds for devector; segmented containers can exceed it (C27, segmentedVector_exceeds_max_size), and an example beside segmented_segments shows that the check then wraps around."
  },
  {
   "property": "C54",
   "status": "proved",
   "theorems": [
    "devector_reserve_strong",
    "devector_insert_strong",
    "compactVector_strong"
   ],
   "note": "Insertions of several elements into a devector are not included (C20 refutes them)."
  },
  {
   "property": "C55",
   "status": "proved",
   "theorems": [
    "smallFlat_no_allocation",
    "smallUnord_no_allocation"
   ],
   "note": "The programs consist of the public modifiers on one container that starts empty; next counts allocations."
  },
  {
   "property": "C56",
   "status": "partial",
   "theorems": [
    "smallFlat_present",
    "staticFlat_present",
    "smallUnord_present",
    "smallUnord_emplace_present_partial",
    "staticUnord_present",
    "staticUnord_emplace_present_partial",
    "smallUnord_emplace_present"
   ],
   "note": "False for emplace of a full small_unordered_flat_map (smallUnord_emplace_present) and if the equality throws in the emplace functions that append first (C36). Everything else is proved."
  },
  {
   "property": "C57",
   "status": "proved",
   "theorems": [
    "smallVector_world_no_allocation",
    "smallFlat_world_no_allocation",
    "smallUnord_world_no_allocation"
   ],
   "note": "next counts allocations. The client never calls an operation that asks for more than N elements; constructors, assignments, swap and moves are unrestricted otherwise."
  },
  {
   "property": "C58",
   "status": "proved",
   "theorems": [
    "smallFlat_storage_kept",
    "smallFlat_references_kept",
    "smallFlat_capacity_moved",
    "staticFlat_references_kept",
    "smallUnord_storage_kept",
    "smallUnord_references_kept",
    "smallUnord_capacity_moved",
    "staticUnord_references_kept"
   ],
   "note": "References: for ordered containers the elements must be in order (true in all programs without throwing moves, C28). For erase(key) and erase_if nothing is claimed about the place of the remaining elements."
  },
  {
   "property": "C59",
   "status": "proved",
   "theorems": [
    "smallFlat_insert_order",
    "staticFlat_insert_order",
    "smallUnord_insert_order",
    "staticUnord_insert_order",
    "smallFlat_equal",
    "staticFlat_equal",
    "smallFlat_assign_order",
    "smallUnord_assign_order"
   ],
   "note": "The static containers are left out of the claim about operator=(initializer_list): there it copies the list as it is (DESIGN.md section 3). Both runs must return. Ordered containers must be in order (C28). The equality of elements must be the identity of values (eq a b iff a = b) in the two theorems about operator==; for unordered containers see C38."
  }
 ]
}