{"id": "C01", "title": "vector operations behave like list operations", "statement": "After any successful vector modifier (emplace, emplace_back, insert, pop_back, erase, resize, assign, clear, reserve, shrink_to_fit) the element sequence observed from begin() to end() is exactly the one the corresponding sequence operation produces from the previous sequence, and the returned iterator designates the documented position; no undefined behaviour (access to unconstructed storage, out-of-bounds access, wrong deallocation) occurs.", "quantifier": "all element types (arbitrary value, copy, move and moved-from behaviour), all vectors in a reachable state, all positions and arguments meeting the documented preconditions, all sequences of operations", "why_tests_cant": "tests execute finitely many sizes/capacities/positions; the case splits on capacity, position and spare room are only sampled, and undefined behaviour often goes unnoticed", "anchors": ["include/sfl/vector.hpp: emplace, emplace_back, pop_back, erase, resize, insert_fill_n, insert_range, assign_fill_n, assign_range, clear, reserve, shrink_to_fit"]}
{"id": "C02", "title": "vector never leaks and destroys every element exactly once, under any exceptions", "statement": "Whatever operations are performed and whichever allocator call or element copy/move/construction throws, no element is destroyed twice or destroyed while not alive, no memory block is freed twice, with a wrong size or through the wrong allocator, and after the vector is destroyed every element it ever constructed has been destroyed and every block it allocated has been returned.", "quantifier": "all operation sequences, all subsets of throwing points (every schedule of exceptions)", "why_tests_cant": "the number of interleavings of operations and throwing points is unbounded; a test injects an exception at a few points", "anchors": ["include/sfl/vector.hpp: all modifiers, ~vector", "include/sfl/private.hpp: uninitialized_*_a, destroy_a, allocate, deallocate"]}
{"id": "C03", "title": "strong exception guarantee of vector reserve, shrink_to_fit and emplace_back", "statement": "If vector::reserve, shrink_to_fit or emplace_back/push_back exits with an exception, then the vector has the same elements at the same addresses and the same capacity as before the call, provided the element type has a non-throwing move constructor or is copyable.", "quantifier": "all vectors, arguments and exception schedules; element types with noexcept move or with copy construction", "why_tests_cant": "needs every possible throwing point at every size/capacity combination", "anchors": ["include/sfl/vector.hpp: reserve, shrink_to_fit, emplace_back", "include/sfl/private.hpp: uninitialized_move_if_noexcept_a"]}
{"id": "C04", "title": "basic exception guarantee of vector insert, emplace, erase, resize and assign", "statement": "If any other vector modifier exits with an exception the vector is still in a valid state: it owns a well-formed storage block, its elements are all alive, it can be used further and destroyed without undefined behaviour or leak.", "quantifier": "all vectors, positions, arguments and exception schedules", "why_tests_cant": "needs every throwing point in every branch of the in-place/reallocate case split", "anchors": ["include/sfl/vector.hpp: emplace, erase, resize, insert_fill_n, insert_range, assign_fill_n, assign_range"]}
{"id": "C05", "title": "capacity growth never overflows, never under-allocates and reports length_error exactly when it must", "statement": "When a contiguous container (vector, small_vector, small flat containers) has to grow by n elements, the new capacity is at least size()+n and at most max_size(); std::length_error is thrown if and only if size()+n exceeds max_size(); no intermediate machine-integer computation wraps around, given size() <= capacity() <= max_size().", "quantifier": "all sizes, capacities, increments, maximum sizes and internal capacities representable in size_type (64-bit arithmetic)", "why_tests_cant": "the boundary values (close to max_size, close to 2^64) cannot be allocated in a test", "anchors": ["include/sfl/vector.hpp: calculate_new_capacity, check_size", "include/sfl/small_vector.hpp: calculate_new_capacity", "include/sfl/small_flat_set.hpp: calculate_new_capacity"]}
{"id": "C06", "title": "appending n elements costs linear total work", "statement": "Starting from any vector, appending k elements one at a time with emplace_back performs a total number of element constructions/moves and allocations that is at most linear in the initial size plus k (amortised constant per append), provided max_size is not reached.", "quantifier": "all initial states and all k", "why_tests_cant": "asymptotic statement about unbounded k; timing tests only suggest it", "anchors": ["include/sfl/vector.hpp: emplace_back, calculate_new_capacity"]}
{"id": "C07", "title": "arguments may alias elements of the vector", "statement": "emplace, emplace_back, push_back, insert(pos, value), insert(pos, n, value) and resize(n, value) produce the documented sequence even if the argument is a reference to an element of the same vector, whether or not a reallocation happens.", "quantifier": "all vectors, all positions and counts, all element indices the argument may refer to", "why_tests_cant": "the bug class depends on the relative position of the alias, the insert position and the spare capacity", "anchors": ["include/sfl/vector.hpp: emplace, emplace_back, insert_fill_n, resize"]}
{"id": "C08", "title": "reserve guarantees stable references for later appends", "statement": "After reserve(n) succeeds, capacity() >= n, and emplace_back neither allocates nor moves any existing element as long as size() < capacity(); shrink_to_fit makes capacity() equal size(); neither changes the elements.", "quantifier": "all vectors, all n, all numbers of appends up to the reserved capacity", "why_tests_cant": "universally quantified over sizes; absence of reallocation is not observable by value tests", "anchors": ["include/sfl/vector.hpp: reserve, shrink_to_fit, emplace_back"]}
{"id": "C09", "title": "comparison operators are consistent", "statement": "operator== on the sequence containers holds iff sizes are equal and all corresponding elements are equal; operator< is lexicographic order; <=, >, >=, != are consistent with them, and for a strict weak order on elements operator< is a strict weak order on containers.", "quantifier": "all pairs/triples of containers and all element orders", "why_tests_cant": "order laws quantify over all triples", "anchors": ["include/sfl/vector.hpp: operator==, operator<, operator>, operator<=, operator>=", "include/sfl/small_vector.hpp: operator==, operator<"]}
{"id": "C10", "title": "erase and erase_if remove exactly the matching elements and return their count", "statement": "erase(c, value) and erase_if(c, pred) leave exactly the elements that do not match, in their original relative order (for ordered sequence containers), and return how many were removed.", "quantifier": "all containers contents and predicates", "why_tests_cant": "universally quantified over contents and predicates", "anchors": ["include/sfl/vector.hpp: erase, erase_if", "include/sfl/small_flat_set.hpp: erase_if", "include/sfl/small_unordered_flat_set.hpp: erase_if"]}
{"id": "C11", "title": "small_vector does not allocate while its elements fit the internal storage", "statement": "A small_vector<T,N> that has never held more than N elements and never been asked to reserve more than N performs no allocation at all, and its elements live inside the object.", "quantifier": "all N, all operation sequences whose requested sizes stay within N", "why_tests_cant": "absence of allocation over all operation sequences", "anchors": ["include/sfl/small_vector.hpp: emplace_back, emplace, resize, insert_fill_n, insert_range, reserve, shrink_to_fit, calculate_new_capacity, initialize_*"]}
{"id": "C12", "title": "small_vector operations behave like list operations in both storage modes", "statement": "Every small_vector modifier produces the sequence specified for a list and no undefined behaviour, whether elements are stored internally or on the heap and across every transition between the two (including back to internal storage), also for N = 0 and for moved-from objects.", "quantifier": "all N, all reachable states, all arguments meeting preconditions", "why_tests_cant": "interaction of storage modes with sizes around N is a large case space", "anchors": ["include/sfl/small_vector.hpp: emplace, emplace_back, erase, resize, reserve, shrink_to_fit, insert_fill_n, insert_range, assign_fill_n, assign_range, reset"]}
{"id": "C13", "title": "small_vector swap and move transfer exactly the elements", "statement": "swap exchanges the two element sequences for all four combinations of internal/heap storage; move construction/assignment gives the destination exactly the source's sequence; afterwards both objects can be destroyed without leak or double destruction.", "quantifier": "all pairs of states, all allocators that are equal or propagate as documented, all exception schedules for validity", "why_tests_cant": "four storage combinations times relative sizes times exceptions", "anchors": ["include/sfl/small_vector.hpp: swap, initialize_move, assign_move, initialize_copy, assign_copy"]}
{"id": "C14", "title": "small_vector leak freedom and exception guarantees", "statement": "As C02/C03/C04 but for small_vector: under any exception schedule the object stays valid, reserve/shrink_to_fit/emplace_back have no effect when they throw (nothrow-movable or copyable elements), and destruction releases everything without ever releasing the internal storage.", "quantifier": "all operation sequences, all exception schedules, all N", "why_tests_cant": "as C02", "anchors": ["include/sfl/small_vector.hpp: reserve, shrink_to_fit, emplace_back, emplace, resize, insert_*, assign_*, ~small_vector"]}
{"id": "C15", "title": "static_vector never allocates, never exceeds its capacity and behaves like a bounded list", "statement": "Under the documented preconditions every static_vector operation yields the list result, uses only the N in-object slots, never allocates, and every element is destroyed exactly once even if element operations throw.", "quantifier": "all N, all reachable states, all arguments meeting preconditions, all exception schedules", "why_tests_cant": "as C01/C02", "anchors": ["include/sfl/static_vector.hpp: emplace, emplace_back, insert, erase, resize, assign, swap, ~static_vector"]}
{"id": "C16", "title": "compact_vector capacity always equals its size", "statement": "After every operation of compact_vector, capacity() == size() (storage holds exactly the elements) and contents are those of the list operation.", "quantifier": "all states and arguments", "why_tests_cant": "universal statement about memory footprint", "anchors": ["include/sfl/compact_vector.hpp: emplace, erase, resize, insert_fill_n, insert_range, assign_fill_n, assign_range, clear"]}
{"id": "C17", "title": "compact_vector stays valid and returns memory with the right size under exceptions", "statement": "If any compact_vector operation throws, the container is still valid, and every deallocation passes the same size that was requested at allocation.", "quantifier": "all states, arguments and exception schedules", "why_tests_cant": "sized-deallocation mismatches are invisible with the default allocator", "anchors": ["include/sfl/compact_vector.hpp: assign_fill_n, assign_range, clear"]}
{"id": "C18", "title": "devector behaves like a list with two open ends", "statement": "push/pop at both ends, emplace and insert at any position, erase, reserve_front/back, resize_front/back, assign yield the list result with no undefined behaviour in the absence of exceptions of elements and allocators, for every split of spare capacity between front and back; the only exception is length_error. (insert(pos, n, value) and resize(n, value) with an element of the container itself: C21.)", "quantifier": "all layouts (front space, size, back space), positions, counts", "why_tests_cant": "insertion has about twenty geometric cases depending on four quantities", "anchors": ["include/sfl/devector.hpp: insert_aux, insert_aux_shift_to_back, insert_aux_shift_to_front, insert_aux_grow_storage_front, insert_aux_grow_storage_back, emplace_front_aux, emplace_back_aux, erase"]}
{"id": "C19", "title": "devector releases its storage with the pointer it obtained", "statement": "Move assignment and copy assignment between devectors return every block to the allocator using the address obtained from it.", "quantifier": "all pairs of states", "why_tests_cant": "only misbehaves if the front of the storage has free space; default allocators may not detect it", "anchors": ["include/sfl/devector.hpp: reset, assign_move, assign_copy"]}
{"id": "C20", "title": "devector insertion is exception safe", "statement": "If an element operation throws during insertion into a devector, no element is leaked or destroyed twice and the container remains valid.", "quantifier": "all layouts, positions, counts and exception schedules", "why_tests_cant": "requires a throw at one particular move in one of about twenty geometric cases", "anchors": ["include/sfl/devector.hpp: insert_aux_shift_to_back, insert_aux_shift_to_front"]}
{"id": "C21", "title": "devector arguments may alias elements", "statement": "insert(pos, n, value) and resize/resize_front/resize_back(n, value) on a devector give the documented result when value refers to an element of the same devector.", "quantifier": "all layouts, positions, counts, alias indices", "why_tests_cant": "as C07", "anchors": ["include/sfl/devector.hpp: insert_fill_n, resize, resize_front, resize_back"]}
{"id": "C22", "title": "segmented iterators satisfy the random access laws", "statement": "For segmented_vector/segmented_devector iterators: ++ and -- are inverse, it+n equals n increments (n decrements for negative n), (it+n)-it == n, it1 < it2 iff it2-it1 > 0, equality iff same position, and dereferencing it+n yields the n-th element; intermediate steps never read outside the segment table.", "quantifier": "all segment sizes N>0, all numbers of segments, all positions and offsets within the container", "why_tests_cant": "integer division/rounding for negative offsets, all N", "anchors": ["include/sfl/private.hpp: segmented_iterator operator++, --, +=, -=, -, ==, <"]}
{"id": "C23", "title": "bulk operations treat the segments as one contiguous sequence", "statement": "Copying, moving (forward and backward) and filling element ranges of segmented containers, as done by range insertion, erasure and assignment, gives the same result as element-by-element processing of the whole sequence, however source and destination are aligned with segment boundaries, and touches no element outside the designated ranges.", "quantifier": "all segment sizes, all start/end positions, all combinations of segmented and flat source/destination", "why_tests_cant": "chunk boundaries depend on source and destination offsets modulo N", "anchors": ["include/sfl/private.hpp: copy, copy_backward, move, move_backward, fill, uninitialized_copy_a, uninitialized_move_a, uninitialized_fill_a, destroy_a (segmented overloads)"]}
{"id": "C24", "title": "segmented_vector behaves like a list and never moves elements when growing", "statement": "Every segmented_vector operation yields the list result; growing the storage (push_back, reserve, resize) never moves or copies existing elements, so references remain valid; end() always designates a slot inside an allocated segment.", "quantifier": "all N, all states, all operation sequences", "why_tests_cant": "reference stability over unbounded growth, table reallocation cases", "anchors": ["include/sfl/segmented_vector.hpp: grow_storage, emplace_back, emplace, insert_fill_n, insert_range, erase, resize, shrink_storage, allocate_storage"]}
{"id": "C25", "title": "segmented_devector behaves like a double-ended list with stable references", "statement": "As C24 for segmented_devector at both ends.", "quantifier": "all N, all states", "why_tests_cant": "the out-of-range read is only of an unused value", "anchors": ["include/sfl/segmented_devector.hpp: insert_range, grow_storage_front, grow_storage_back, emplace, erase"]}
{"id": "C26", "title": "swap of segmented containers keeps storage and allocator together", "statement": "After swap, each container deallocates its storage with an allocator equal to the one that allocated it.", "quantifier": "all pairs of containers and allocators", "why_tests_cant": "needs stateful propagating allocators that verify ownership", "anchors": ["include/sfl/segmented_vector.hpp: swap", "include/sfl/segmented_devector.hpp: swap"]}
{"id": "C27", "title": "segmented containers never exceed max_size", "statement": "A segmented container whose size reaches max_size() refuses to grow with std::length_error.", "quantifier": "all max_size values and N", "why_tests_cant": "default max_size is unreachable", "anchors": ["include/sfl/segmented_vector.hpp: grow_storage, allocate_storage", "include/sfl/segmented_devector.hpp: grow_storage_front, grow_storage_back"]}
{"id": "C28", "title": "flat sets and maps are always sorted without equivalent keys", "statement": "After any sequence of operations that complete normally on small_flat_set/small_flat_map/static_flat_set/static_flat_map (insert, emplace, hinted insert, try_emplace, insert_or_assign, erase, range construction, assignment), the elements from begin() to end() are strictly increasing under the comparator.", "quantifier": "all strict weak orders, all operation sequences, all hints", "why_tests_cant": "invariant over unbounded operation sequences and arbitrary comparators", "anchors": ["include/sfl/small_flat_set.hpp: insert_aux, insert_exactly_at, is_insert_hint_good, erase, initialize_range", "include/sfl/small_flat_map.hpp: insert_or_assign_aux, try_emplace_aux", "include/sfl/static_flat_set.hpp: insert_aux"]}
{"id": "C29", "title": "flat lookup is exact", "statement": "find/contains/count/lower_bound/upper_bound/equal_range on flat containers return precisely the position/multiplicity defined by the comparator: find returns an element equivalent to the key iff one exists; lower_bound is the first element not less; the number of comparisons made by lower_bound is at most logarithmic in the size.", "quantifier": "all contents reachable, all keys, all strict weak orders (also heterogeneous keys consistent with the order)", "why_tests_cant": "all sizes and keys; complexity bound", "anchors": ["include/sfl/small_flat_set.hpp: lower_bound, upper_bound, equal_range, find, count, contains"]}
{"id": "C30", "title": "flat set insertion semantic", "statement": "insert(value) on a flat set returns (iterator to element equivalent to value, true) and adds the value if no equivalent element existed, otherwise leaves the container unchanged and returns (iterator to the existing element, false); insertion with a hint gives the same contents for every hint.", "quantifier": "all contents, values and hints", "why_tests_cant": "hint correctness needs all positions", "anchors": ["include/sfl/small_flat_set.hpp: insert_aux, is_insert_hint_good, insert_exactly_at", "include/sfl/static_flat_set.hpp: insert_aux"]}
{"id": "C31", "title": "flat map operations refine a finite map", "statement": "insert, emplace, try_emplace, insert_or_assign, operator[], at, erase(key) on small_flat_map/static_flat_map and the unordered flat maps act as the corresponding operations on a finite map from key classes to values; at throws out_of_range exactly for missing keys.", "quantifier": "all contents, keys, values", "why_tests_cant": "abstraction over all reachable contents", "anchors": ["include/sfl/small_flat_map.hpp: insert_aux, insert_or_assign_aux, try_emplace_aux, operator[], at, erase", "include/sfl/small_unordered_flat_map.hpp: insert_or_assign_aux, try_emplace_aux, operator[], at", "include/sfl/static_flat_map.hpp: insert_or_assign_aux"]}
{"id": "C32", "title": "flat multiset/multimap keep all elements sorted", "statement": "insert into a flat multi container keeps the elements sorted, keeps every previous element and its relative order, and adds exactly the new one, for good and bad hints; erase(key) removes exactly the equivalent elements and returns their number; values aliasing an element are inserted correctly.", "quantifier": "all contents, keys, hints, aliases", "why_tests_cant": "hint and alias combinations", "anchors": ["include/sfl/small_flat_multiset.hpp: insert_aux, is_insert_hint_good, insert_exactly_at, erase", "include/sfl/small_flat_multimap.hpp: insert_aux"]}
{"id": "C33", "title": "unordered flat set/map never contain two equal keys and erase disturbs nothing else", "statement": "unordered flat sets/maps contain pairwise non-equivalent keys after any operations; insert/emplace add exactly when absent; erase(pos), erase(first,last) and erase(key) remove exactly the designated elements and keep all others (as a multiset).", "quantifier": "all contents, positions, ranges, keys, equivalence relations", "why_tests_cant": "range erase picks elements from the tail depending on two counts", "anchors": ["include/sfl/small_unordered_flat_set.hpp: emplace_aux, insert_aux, erase, find", "include/sfl/small_unordered_flat_map.hpp: insert_aux", "include/sfl/static_unordered_flat_set.hpp: erase"]}
{"id": "C34", "title": "erase(key) of unordered flat multi containers removes exactly the equivalent elements", "statement": "erase(key) removes all elements equivalent to key and no other, also if key is a reference to an element of the container.", "quantifier": "all contents, keys, aliases", "why_tests_cant": "depends on alias position and on what is moved into the hole", "anchors": ["include/sfl/small_unordered_flat_multiset.hpp: erase(const Key&)", "include/sfl/small_unordered_flat_multimap.hpp: erase(const Key&)", "include/sfl/static_unordered_flat_multiset.hpp: erase(const Key&)"]}
{"id": "C35", "title": "assigning an initializer list to a static flat container keeps its invariant", "statement": "After c = {x1,...,xn} a static flat set/map (ordered or unordered) contains exactly one element per key class, sorted if ordered.", "quantifier": "all lists", "why_tests_cant": "tests use already sorted lists without duplicates", "anchors": ["include/sfl/static_flat_set.hpp: operator=(initializer_list), assign_range", "include/sfl/static_flat_map.hpp: operator=(initializer_list)", "include/sfl/static_unordered_flat_set.hpp: operator=(initializer_list)"]}
{"id": "C36", "title": "flat containers stay sorted and unique after an exception", "statement": "If an element operation or the allocator throws during insert or erase, a flat set is still sorted and duplicate free.", "quantifier": "all contents and exception schedules", "why_tests_cant": "needs throw in the middle of a shift", "anchors": ["include/sfl/small_flat_set.hpp: insert_exactly_at, erase", "include/sfl/static_flat_set.hpp: insert_exactly_at"]}
{"id": "C37", "title": "flat container reserve/shrink_to_fit/insert obey strong guarantee on reallocation", "statement": "When insertion into or reserve of a small flat container has to reallocate and fails, the container is unchanged (nothrow-movable or copyable elements), and nothing is leaked.", "quantifier": "all states and exception schedules", "why_tests_cant": "as C03", "anchors": ["include/sfl/small_flat_set.hpp: reserve, shrink_to_fit, insert_exactly_at", "include/sfl/small_unordered_flat_set.hpp: emplace_back"]}
{"id": "C38", "title": "unordered comparison is equality of multisets", "statement": "x == y for unordered flat containers iff the two contain the same elements with the same multiplicities, independent of internal order.", "quantifier": "all pairs", "why_tests_cant": "all permutations", "anchors": ["include/sfl/small_unordered_flat_set.hpp: operator==", "include/sfl/small_unordered_flat_multiset.hpp: operator=="]}
{"id": "C39", "title": "allocator propagation and ownership on assignment and swap of vector", "statement": "After copy/move assignment or swap of vectors with any combination of propagation traits and (un)equal allocators (swap: per its precondition), every block is owned by the container whose allocator equals the allocating one, so all later deallocations are valid; the moved/copied contents are correct.", "quantifier": "all trait combinations, allocators, states", "why_tests_cant": "requires stateful allocators with unequal instances", "anchors": ["include/sfl/vector.hpp: assign_copy, assign_move, swap, initialize_move"]}
{"id": "C40", "title": "constructors either succeed completely or leave nothing behind", "statement": "Constructing a sequence container from n copies of a value, n default values, a range, or as a copy of another container yields exactly the requested elements; if an allocation or element construction throws, every element already constructed has been destroyed, all memory has been returned, and the source is unmodified.", "quantifier": "all lengths, all throwing points, all sources", "why_tests_cant": "all lengths and throw points", "anchors": ["include/sfl/vector.hpp: initialize_default_n, initialize_fill_n, initialize_range, initialize_copy", "include/sfl/small_vector.hpp: initialize_*", "include/sfl/static_vector.hpp: initialize_*", "include/sfl/private.hpp: uninitialized_copy_a, uninitialized_fill_n_a, uninitialized_default_construct_n_a"]}
{"id": "C41", "title": "copy assignment makes the destination equal and leaves the source alone", "statement": "After x = y (copy) for a sequence container, x has the same elements as y had before, y is unchanged, whatever the relation of the sizes and capacities; self-assignment changes nothing.", "quantifier": "all pairs of states, allocators and propagation traits", "why_tests_cant": "relations of size/capacity of the two sides", "anchors": ["include/sfl/vector.hpp: assign_copy, assign_range", "include/sfl/small_vector.hpp: assign_copy", "include/sfl/static_vector.hpp: assign_copy"]}
{"id": "C42", "title": "moved-from containers are empty and usable", "statement": "After vector/devector/segmented container y is moved from with stolen storage, y is empty with zero capacity and every operation can be applied to it again with the same guarantees as on a freshly constructed container.", "quantifier": "all states, all subsequent operations", "why_tests_cant": "every operation must cope with the null storage state", "anchors": ["include/sfl/vector.hpp: initialize_move, assign_move, emplace_back, reserve", "include/sfl/devector.hpp: initialize_move"]}
{"id": "C43", "title": "element access and iteration find exactly the elements", "statement": "After any program, iterating from begin() to end() visits the elements of a container in order, iterating backwards from end() visits them in reverse order, end() - begin() is size(); nth(k), operator[](k), at(k), front(), back() and index_of find the element or position they name; at(k) throws out_of_range exactly if k >= size(); nothing is changed.", "quantifier": "all programs, all positions, all containers (contiguous, segmented, flat), all segment sizes", "why_tests_cant": "all relations between positions, segment boundaries and the free space at both ends", "anchors": ["include/sfl/vector.hpp: begin, end, nth, index_of, at, operator[], front, back", "include/sfl/devector.hpp: same", "include/sfl/segmented_vector.hpp: same and the iterator class", "include/sfl/segmented_devector.hpp: same", "include/sfl/small_flat_set.hpp: begin, end, nth, index_of"]}
{"id": "C44", "title": "no spurious exceptions", "statement": "If no element operation and no allocation throws, then no operation of a program with several containers throws, except length_error of an operation that asks its container for more than max_size() elements. Copies, moves, assignments of containers, swap and destructors throw nothing, and the static containers throw nothing at all.", "quantifier": "all programs with any number of containers, all environments that do not throw, all value types, all containers", "why_tests_cant": "a wrong size check or growth computation near max_size() is unreachable for tests; the space of capacity/size combinations at the limit is unbounded", "anchors": ["include/sfl/vector.hpp: check_size, calculate_new_capacity", "include/sfl/devector.hpp: check_size, calculate_new_capacity, grow_storage_front, grow_storage_back", "include/sfl/segmented_vector.hpp: grow_storage", "include/sfl/segmented_devector.hpp: grow_storage_front, grow_storage_back", "include/sfl/static_vector.hpp: emplace_back"]}
{"id": "C45", "title": "operations at the ends cost amortised constant time", "statement": "A program of k push_back, emplace_back, pop_back calls on vector or small_vector, or of these and push_front, emplace_front, pop_front on devector, performs at most a constant times size() + k element operations and allocations, also if something throws. For segmented_vector and segmented_devector each single call performs at most four. (The documentation says \"Constant.\" for each of these functions.)", "quantifier": "all programs of such calls, all reachable containers, all environments (throwing or not), all capacities and sizes", "why_tests_cant": "an amortised bound quantifies over all sequences of calls and all layouts of free space; a bad sequence has to be found for a particular ratio of free space and size", "anchors": ["include/sfl/vector.hpp: emplace_back, calculate_new_capacity", "include/sfl/small_vector.hpp: emplace_back, calculate_new_capacity", "include/sfl/devector.hpp: emplace_front, emplace_back, insert_aux, calculate_additional_capacity_for_grow_storage_front/back", "include/sfl/segmented_vector.hpp: emplace_back, grow_storage", "include/sfl/segmented_devector.hpp: emplace_front, emplace_back, grow_storage_front, grow_storage_back"]}
{"id": "C46", "title": "a modifier costs what the documentation says", "statement": "A single modifier performs at most the documented number of element operations and allocations, up to a constant factor: insertion of m elements at position k of n costs at most linear in m plus linear in n - k (vector, small_vector, static_vector, segmented_vector) or in min(k, n - k) (devector, segmented_devector) if the capacity suffices, and otherwise linear in m plus n (segmented_vector, segmented_devector: plus one allocation per missing segment; elements are not moved); erasure linear in the elements behind; resize linear in the difference of the sizes; assignment linear in the new size; pop_back, clear and reserve within the capacity constant. The modifiers and constructors of compact_vector, whose storage always has exactly size() slots, cost at most linear in the sizes before and after. This holds also if the modifier throws.", "quantifier": "all reachable containers, all positions and counts, all environments (throwing or not), all capacities", "why_tests_cant": "a bound for all sizes, positions and capacities, also on the exception paths; tests measure a few sizes", "anchors": ["include/sfl/vector.hpp: emplace, insert_fill_n, insert_range, erase, resize, assign_fill_n, assign_range, reserve, shrink_to_fit, erase_if", "include/sfl/small_vector.hpp: same", "include/sfl/devector.hpp: insert_aux, emplace, erase, resize, resize_front, resize_back, assign_fill_n, assign_range, reserve_front, reserve_back, shrink_to_fit, erase_if", "include/sfl/static_vector.hpp: same", "include/sfl/segmented_vector.hpp: grow_storage, insert_fill_n, insert_range, erase, resize, assign_fill_n, assign_range, reserve, shrink_to_fit, erase_if", "include/sfl/compact_vector.hpp: emplace, insert_fill_n, insert_range, erase, resize, assign_fill_n, assign_range, initialize_*, erase_if", "include/sfl/segmented_devector.hpp: grow_storage_front, grow_storage_back, emplace, insert_fill_n, insert_range, erase, resize, resize_front, resize_back, assign_fill_n, assign_range, reserve_front, reserve_back, shrink_to_fit, erase_if"]}
{"id": "C47", "title": "storage stays proportional to the content", "statement": "After any program, whatever it throws, the capacity exceeds neither the capacity before the program, nor the internal storage, nor a constant times (segmented_vector: one segment more than) the largest number of elements that was asked for on the way (size() plus inserted elements, or the argument of reserve and resize). A single modifier of segmented_devector adds at most one segment more than is needed for the slots missing at the end at which it works.", "quantifier": "all programs, all environments (throwing or not), all reachable containers", "why_tests_cant": "unbounded growth of the storage shows only in long programs of a particular shape", "anchors": ["include/sfl/vector.hpp: calculate_new_capacity, emplace_back, insert_range", "include/sfl/small_vector.hpp: same", "include/sfl/devector.hpp: calculate_additional_capacity_for_grow_storage_front/back, resize_front, resize_back, reserve_front, reserve_back", "include/sfl/segmented_vector.hpp: grow_storage, emplace_back, insert_range, reserve", "include/sfl/segmented_devector.hpp: grow_storage_front, grow_storage_back, emplace_back, pop_front"]}
{"id": "C48", "title": "flat containers cost what the documentation says", "statement": "The lookups of an ordered flat container make at most 2(log2 n + 1) comparisons, those of an unordered one at most n, and neither does anything else to elements. A single insertion into or erasure from an ordered container of n elements costs at most linear in n plus logarithmic comparisons; inserting into an unordered container with equal keys and erasing at a position of an unordered container costs a constant (besides a reallocation if the capacity does not suffice); construction from a range, assignment of a list and erase_if cost linear in the number of elements. This holds also if the operation throws.", "quantifier": "all reachable ordered and unordered, small and static flat containers, all keys, positions and ranges, all environments (throwing or not), all capacities", "why_tests_cant": "a bound for all sizes and positions, also on the exception paths; quadratic behaviour of a documented linear function shows only in large inputs of a particular order", "anchors": ["include/sfl/small_flat_set.hpp: lower_bound, equal_range, find, count, insert, emplace, insert_range, erase, erase_if, operator=(initializer_list)", "include/sfl/small_flat_map.hpp, small_flat_multiset.hpp, small_flat_multimap.hpp: same", "include/sfl/static_flat_*.hpp: same", "include/sfl/small_unordered_flat_*.hpp: find, count, insert, emplace, erase, erase_if, operator=(initializer_list)", "include/sfl/static_unordered_flat_*.hpp: same"]}
{"id": "C49", "title": "storage that suffices is kept", "statement": "A modifier other than shrink_to_fit whose result fits the capacity (devector: the free slots at the end at which it works) leaves data() and capacity() as they are, whether it returns or throws; if it returns, the elements before the place of the operation (devector push_back, push_front: all elements) are where and what they were. reserve, reserve_front, reserve_back and shrink_to_fit move the elements only if they change the capacity, as documented. static_vector never moves its storage.", "quantifier": "all reachable vector, small_vector, static_vector and devector objects, all modifiers, positions and counts, all environments (throwing or not)", "why_tests_cant": "validity of pointers for all sizes, positions and free capacities, also on the exception paths; a dangling pointer often goes unnoticed in a test", "anchors": ["include/sfl/vector.hpp: emplace, insert_fill_n, insert_range, erase, resize, assign_fill_n, assign_range, reserve, shrink_to_fit", "include/sfl/small_vector.hpp: same", "include/sfl/static_vector.hpp: same", "include/sfl/devector.hpp: insert_aux, emplace, emplace_back, emplace_front, insert_fill_n, insert_range, erase, resize, assign_fill_n, assign_range, reserve_front, reserve_back, shrink_to_fit"]}
{"id": "C50", "title": "cost of constructing, copying, moving, assigning and swapping whole containers", "statement": "After any program, constructing a container from n elements, copying it or assigning a copy costs at most a constant times n plus a constant (allocations, constructions and assignments of elements, counted also if one throws; compact_vector from input iterators n(n+3)/2). Move construction with an equal allocator and move assignment with equal or propagated allocators take over the storage: nothing for elements outside internal storage, at most the N elements in internal storage one by one, two allocations for the segmented containers; move assignment of segmented containers between unequal allocators and all other moves are linear. swap costs nothing for elements outside internal storage and at most three operations for each pair inside. Destruction costs none. The flat containers compare nothing in these functions.", "quantifier": "all programs over any number of containers and allocators, all propagation traits, all sizes, capacities and N, all environments (throwing or not), for all 23 container types (constructors of flat containers: C48)", "why_tests_cant": "a bound for all sizes, storage modes, combinations of allocators and traits and every point at which an exception may be thrown; tests measure time of a few cases", "anchors": ["include/sfl/vector.hpp: initialize_copy, initialize_move, assign_copy, assign_move, swap, ~vector", "include/sfl/small_vector.hpp: same", "include/sfl/compact_vector.hpp: same", "include/sfl/devector.hpp: same", "include/sfl/static_vector.hpp: same", "include/sfl/segmented_vector.hpp: same", "include/sfl/segmented_devector.hpp: same", "include/sfl/small_flat_set.hpp, static_flat_set.hpp, small_unordered_flat_set.hpp, static_unordered_flat_set.hpp and the maps and multi containers: same"]}
{"id": "C51", "title": "flat containers are in order under their own comparator", "statement": "If flat containers of one type carry comparators (key equalities) of different behaviour, every operation uses the comparator of the container it works on, copies, moves, assignments and swaps pass comparators together with the elements, and after any program every container not moved from is sorted (has no two equal keys) under its own key_comp() (key_eq()), so that lookup in it is exact; programs have no undefined behaviour and restore memory whatever the comparators are.", "quantifier": "all programs over any number of containers, all families of strict weak orders (equivalences), all initial comparators, any effect of moving from a comparator, all element behaviours, allocators and N, for the 16 flat container types", "why_tests_cant": "the tests use stateless comparators, or one state per container type; a wrong comparator shows only for particular combinations of histories and orders", "anchors": ["include/sfl/small_flat_set.hpp: constructors, assign_copy, assign_move, swap (317-350, 932, 1527, 1545)", "include/sfl/static_flat_set.hpp: constructors, operator=, swap (193-241, 568)", "include/sfl/small_unordered_flat_set.hpp: same (317-352, 920, 1435, 1453)", "include/sfl/static_unordered_flat_set.hpp: same (190-241, 551)", "the maps and multi containers: same"]}
{"id": "C52", "title": "self move assignment leaves a valid container", "statement": "c = std::move(c) has no undefined behaviour for any container of the library in any state: the container is afterwards valid (empty or with as many, moved-from, elements), can be used further, loses no storage and returns none twice, and if something throws it is valid as well.", "quantifier": "all programs over any number of containers that may move assign containers to themselves at any point, all element behaviours, exception schedules, allocators and N, for all 23 container types", "why_tests_cant": "no test moves a container to itself; the move assignments have no check for it, so that each step works on an object that the previous step has already changed, and the result depends on where the storage is and whether there is free space in front", "anchors": ["include/sfl/vector.hpp:1601-1633 assign_move", "include/sfl/small_vector.hpp:2007-2047 assign_move", "include/sfl/static_vector.hpp:328-336 operator=", "include/sfl/compact_vector.hpp:1297-1326 assign_move", "include/sfl/segmented_vector.hpp:1414-1520 assign_move", "include/sfl/segmented_devector.hpp:2028-2136 assign_move", "include/sfl/devector.hpp:2005-2041 assign_move, 1385-1416 reset", "assign_move and operator= of the flat containers"]}
{"id": "C53", "title": "size computations of compact_vector, devector and the segmented containers do not wrap around", "statement": "In 64-bit wrapping arithmetic: compact_vector throws length_error iff size()+n exceeds max_size() as an integer (also when size()+n wraps) and otherwise requests exactly size()+n slots; devector's additional capacity covers the elements that do not fit and is at least half of the capacity seen from that end, its new capacity is the exact sum and length_error is thrown iff that sum exceeds max_size(); reserve_front/reserve_back throw iff the request plus the free space at the other end exceeds max_size() and otherwise never shrink; segmented_vector/segmented_devector compute a number of segments with room for n elements (and the end slot at the back) with less than one segment too many, and a table with room for all entries, at least half as large again. The hypotheses are capacity() <= max_size() (and for tables that they fit the address space).", "quantifier": "all 64-bit values of sizes, capacities, increments, maximum sizes, segment sizes and table capacities within the stated bounds", "why_tests_cant": "the values at which the arithmetic could wrap cannot be allocated in a test", "anchors": ["include/sfl/compact_vector.hpp: emplace, insert_fill_n, insert_range", "include/sfl/devector.hpp: calculate_additional_capacity_for_grow_storage_front/back, grow_storage_front/back, reserve_front/back, insert_aux_grow_storage_front/back", "include/sfl/segmented_vector.hpp: allocate_storage, grow_storage", "include/sfl/segmented_devector.hpp: allocate_storage, grow_storage_front, grow_storage_back"]}
{"id": "C54", "title": "operations of devector and compact_vector without effect when they throw", "statement": "reserve_front, reserve_back and shrink_to_fit of a devector that throw leave data members, blocks and every cell of memory as they were, if elements have a noexcept move constructor or a copy constructor (otherwise storage, free space at both ends and number of elements are kept). An insertion of one element anywhere in a devector that throws changes nothing if elements can be moved without exceptions. push_back, emplace, insert of one element or n copies, pop_back and erase of a compact_vector that throw change nothing if elements have a noexcept move constructor or a copy constructor.", "quantifier": "all devectors in every layout and all compact_vectors reached by any program, all positions and arguments (also elements of the container itself), all element behaviours and exception schedules", "why_tests_cant": "each of these operations has dozens of points at which it can throw, in several layouts; what must be unchanged is all of memory and not only the elements", "anchors": ["doc/devector.md:665-745 reserve_front, reserve_back, shrink_to_fit", "include/sfl/devector.hpp: reserve_front, reserve_back, shrink_to_fit, emplace, emplace_front, emplace_back", "include/sfl/compact_vector.hpp: emplace, insert_fill_n, erase, pop_back"]}
{"id": "C55", "title": "small flat containers do not allocate while their elements fit the internal storage", "statement": "As long as only operations are performed that never ask for more than N elements, a default constructed small flat container (ordered or unordered; set, map, multiset, multimap) never allocates memory, never throws bad_alloc and keeps its elements in the internal storage.", "quantifier": "all sequences of modifiers, all N, all comparators, element behaviours and exception schedules, all eight container types", "why_tests_cant": "the property is about all sequences of operations including those in which operations throw at any point", "anchors": ["doc/small_flat_set.md:54-75 Summary", "include/sfl/small_flat_set.hpp: insert_exactly_at, reserve, shrink_to_fit", "include/sfl/small_unordered_flat_set.hpp: emplace_back, reserve, shrink_to_fit"]}
{"id": "C56", "title": "inserting an element whose key is present has no effect", "statement": "insert, emplace, emplace_hint, try_emplace, operator[] and range insertion of the flat sets and maps with unique keys, when every element to be inserted has an equivalent one in the container, leave data members, memory blocks and every cell of memory as they were and allocate nothing, also if a comparison or the construction of the temporary throws; so all iterators and references stay valid.", "quantifier": "all reachable containers, all elements, hints, comparators and exception schedules; set and map; small and static, ordered and unordered", "why_tests_cant": "tests look at the contents afterwards; they do not observe reallocation or element moves that cancel out, nor the effect of an exception at each step", "anchors": ["include/sfl/small_flat_set.hpp: insert_aux, emplace, emplace_hint", "include/sfl/small_flat_map.hpp: insert_aux, try_emplace_aux", "include/sfl/small_unordered_flat_map.hpp:1733-1746 emplace_aux", "include/sfl/static_unordered_flat_set.hpp: emplace_aux", "doc/small_unordered_flat_map.md:687-706 emplace"]}
{"id": "C57", "title": "programs with several small containers do not allocate while everything fits the internal storages", "statement": "A program with any number of small_vectors (or small flat containers) that constructs, copies, moves, assigns, swaps, modifies and destroys them in any order, but never asks for more than N elements, runs without undefined behaviour, never allocates memory, never throws bad_alloc, leaves the blocks of memory as they were, and keeps the elements of every container in its own internal storage.", "quantifier": "all programs over any number of containers, all N, all element behaviours, allocator traits and exception schedules; small_vector and the eight small flat containers", "why_tests_cant": "it is about all interleavings of operations on several containers, with exceptions at any point; tests count allocations in a few programs only", "anchors": ["doc/small_vector.md Summary", "include/sfl/small_vector.hpp:1379-1537 swap", "include/sfl/small_vector.hpp:1775-1830 initialize_move", "include/sfl/small_vector.hpp:1985-2047 assign_copy, assign_move", "include/sfl/small_flat_set.hpp, small_flat_map.hpp, small_flat_multiset.hpp, small_flat_multimap.hpp: initialize_copy, initialize_move, assign_copy, assign_move, swap", "include/sfl/small_unordered_flat_set.hpp, small_unordered_flat_map.hpp and the multi variants: the same"]}
{"id": "C58", "title": "flat containers keep storage that suffices", "statement": "Any operations on a small flat container, in any number, that never ask for more than capacity() elements (shrink_to_fit excluded) leave the storage, its capacity and the blocks of memory as they are, whether they return or throw. If such an operation returns, the elements before the position it returns are where and what they were; insertions into unordered containers leave all elements in place. If the capacity is the same after reserve or shrink_to_fit, nothing has been moved. The static flat containers keep the same elements in place.", "quantifier": "all reachable states in all programs with several containers, all later operation sequences, all lawful orders and equalities, all N, element behaviours and exception schedules; the sixteen small and static flat containers", "why_tests_cant": "it is about references held across all sequences of operations and all points at which one may throw; tests compare addresses in a few sequences", "anchors": ["doc/small_flat_map.md:675 and 715 reserve, shrink_to_fit: otherwise, no iterators or references are invalidated", "include/sfl/small_flat_set.hpp:565 reserve, 1628 insert_exactly_at", "include/sfl/small_unordered_flat_set.hpp:521 reserve, 805-845 erase, 1486 emplace_aux", "the same functions of small_flat_map, small_flat_multiset, small_flat_multimap, the unordered and the static variants"]}
{"id": "C59", "title": "inserting a range is inserting its elements one by one; equal sets compare equal", "statement": "If insert(first, last) of a flat container and any sequence of single insertions (insert, emplace, try_emplace, with any hints) of the same values in the same order both return, the containers have the same elements. If the values have different keys, or the container allows equal keys, the order of the single insertions does not matter either: ordered containers with unique keys hold the same sequence, the others the same elements up to order. Two ordered sets or maps in order, whatever programs made them, compare equal with operator== iff they have the same elements. Assigning an initializer list to a small flat container forgets its past: two containers in any states (also out of order after an exception) that are assigned the same elements have the same elements, and ordered ones are in order.", "quantifier": "all reachable states in all programs, all ranges, all permutations of them, all hints, all lawful orders and equalities, all N and element behaviours; the sixteen small and static flat containers; equality for the sets and maps with unique keys", "why_tests_cant": "it compares all permutations and all choices of insert functions and hints with each other; tests use one order", "anchors": ["doc/small_flat_set.md insert(first, last): inserts elements from the range", "include/sfl/small_flat_set.hpp: insert, insert_range, insert_aux, insert_hint_aux, operator==", "include/sfl/small_unordered_flat_set.hpp: insert, insert_range, emplace_aux", "include/sfl/small_flat_map.hpp, static_flat_set.hpp, static_flat_map.hpp and the other flat containers: the same functions", "include/sfl/small_flat_set.hpp:393-398, small_unordered_flat_set.hpp:395-400 operator=(initializer_list)"]}
