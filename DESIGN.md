# Verification of sfl-library 1.8.2: design

Everything cited as `file.hpp:lines` is in `/repo/include/sfl`.

## 1. Model

### Memory and undefined behaviour
* `St α` is the memory: blocks (`blk : Nat → Option Info`, with size and owning
  allocator; internal storage of `small_*`/`static_*` objects is a block without
  allocator) and cells (`mem : block → offset → Option α`; `none` = raw storage,
  `some v` = live object of value `v`).
* A pointer is block + offset. `nullptr` is `⟨0,0⟩`; block 0 never exists.
* Every program is a function `St → Res`, with `Res` one of
  `ok value state | exn kind state | ub reason`.
  Undefined behaviour is an outcome of its own: constructing over a live
  object, destroying/reading/assigning raw storage, leaving a block, reversed ranges,
  deallocating a wrong pointer/size/allocator, and deallocating a block
  still containing live objects (a leak of elements).
  A theorem "the outcome satisfies Q" therefore includes "no undefined behaviour".
* Loops are structural recursion on a count or on the list of elements.

### Elements and exceptions
* The element type `α` is arbitrary. Its behaviour is a record of unspecified
  functions (`Elem`): the residue left by a move, what a failed assignment leaves
  behind, whether moves are `noexcept`, whether it is copyable.
* Which operation throws is given by an arbitrary oracle `Nat → Bool` indexed by a
  counter of throwing-capable operations. Theorems quantify over the oracle, so
  they cover every exception schedule.
* The same counter measures cost.
* Destructors do not throw (required by the library).

### Functions
Each C++ function is modelled by one Lean definition with the same control flow
(branches, order of effects, try/catch, scope guards). The comment above each
definition cites file and lines.

### Specifications
Separate from the model: operations on `List` (`take`/`drop`/`++`, `replicate`),
sortedness (`List.Pairwise`), finite maps, multisets (`List.Perm`), arithmetic
inequalities. Representation predicates relate a container and memory to a list.

### Several containers
`World.lean` is a machine with `K` slots; a program is any list of steps: construct (with any allocator), copy and move
construct, copy and move assign, swap, destroy, or an operation on one slot. A step whose precondition fails (position out
of range, slot empty, …) is skipped. `session` runs the program, records what every step returned or threw, reads the
contents of all containers and destroys them. The result is compared with the abstract program `WRun`, which only knows
lists, allocators and the permitted failures. `Reached` is "the state of one container at some point of some program"; the
theorems about single operations start from such states.

## 2. Status per property

`proved`/`partial` as in MANIFEST.json; the theorem names are listed there.

| Id | Modelled | Proof | Status |
|----|----------|-------|--------|
| C01, C02 | every modifier of vector on memory (Vector*.lean) | weakest-precondition specification of every function, induction over programs, then the destructor; memory afterwards = memory before | proved |
| C03, C04 | same, all exception schedules | exception postconditions: identical state / some valid state | proved |
| C05 | calculate_new_capacity over 64-bit words and over Nat | arithmetic; both agree | proved (small containers: `N <= max_size()`; an example shows the need) |
| C06 | tick counter of emplace_back | potential function, induction on the number of appends | proved |
| C07 | arguments as values or references into memory | one specification for all kinds of arguments | proved; `assign(n, x)` excludes aliasing as the standard does |
| C08 | reserve/emplace_back/shrink_to_fit | exact post-state | proved |
| C09 | comparison operators over memory | agreement with recursive definitions on lists | proved: all sequence containers (the segmented ones walk their iterators, SegCompare), ordered flat containers |
| C10 | erase/erase_if | refinement to `List.filter` | proved: vector, small_vector, compact_vector, segmented_vector, segmented_devector, devector |
| C11, C12, C14 | small_vector with internal block | as vector, storage mode in the invariant | proved |
| C13 | small_vector copy/move/swap | programs with many containers | partial: false for swap with unequal propagating allocators when an element move throws |
| C15 | static_vector | as vector; no allocation, at most N | proved |
| C16, C17 | every public function of compact_vector | as vector, with block size = number of elements in the invariant; programs with many containers | partial: `resize(n, c[i])` that moves, and throwing `assign` of another size, are wrong (proved) |
| C18 | every public function of devector, with the twenty geometric cases of insert_aux as written | specification of every function for every split of the free space (DevSpec*), then one theorem per modifier and programs with many containers (DevWorld); `Calm` shows that length_error is the only exception if elements and allocators do not throw | proved |
| C19 | assignment between devectors | ownership of both blocks | partial: false if the target has free space at the front and its storage is given up |
| C20 | same functions under all exception schedules | every scope guard and every position of a throw; the predicate `Faulty` names exactly the layouts whose guards are wrong | partial: false in the layouts `Faulty` |
| C21 | value arguments as references into memory | specification without the assumption that the argument lies outside | partial: holds if no element is shifted and no storage is allocated; false otherwise |
| C22 | segmented_iterator: ++, --, +=, -, ==, < over a segment table (Seg) | `segIter_laws`: every operation on an iterator designating slot p is the operation on p; reading the table outside the layout is undefined behaviour | proved |
| C23 | the chunked algorithms of private.hpp: destroy, fill, copy, move, move_backward, uninitialized_* (Seg) | simulation by the contiguous algorithms on the concatenated segments (`Sim`, SegAlgo), then slot-level statements `seg*_slots` | proved |
| C24 | every public function of segmented_vector: table, segments, iterators (SegVec) | the element algorithms are simulated by contiguous ones on the concatenated segments (SegVecSim), so the specifications of static_vector apply; table and segment handling proved directly (SegStore, SegVecSpec*); programs with many containers (SegWorld) | proved |
| C25 | every public function of segmented_devector (SegDev) | rows of slots with a set of occupied slots (SegDevRow), sources of elements (SegDevFeed), then a specification of every function (SegDevSpec*) and programs with many containers (SegDevWorld) | partial: `insert(pos, first, last)` of many elements in the second half computes an iterator outside the storage |
| C26 | swap of segmented_vector and segmented_devector | as C24, C25 | partial: false for unequal propagating allocators |
| C27 | allocate_storage, grow_storage, grow_storage_front, grow_storage_back with wrapping 64-bit subtraction | exact outcome | partial: false once the capacity exceeds `max_size()` |
| C28 | four small and four static ordered flat containers | order invariant over programs, tracking which containers were moved from or hit by an exception without a promise | partial: false for `operator=(initializer_list)` of static containers |
| C29 | find, contains, count, lower/upper bound, equal_range, at, with homogeneous and heterogeneous keys | binary search invariant, comparison counting | partial: heterogeneous `count` of unique containers is at most 1 |
| C30–C32 | insertion with and without hints, maps, multi containers | refinement to insertion into an ordered list / finite maps | proved |
| C33 | four small and four static unordered flat containers | refinement to permutations | partial: false for `operator=(initializer_list)` of static containers |
| C34 | erase(key) with key by value or as reference to an element | same | partial: false for references to an element |
| C35 | operator=(initializer_list) of static flat containers | exact result | partial: the property is false |
| C36 | all flat containers under exceptions | exception postconditions | partial: false for some operations |
| C37 | reallocation in small flat containers | identical memory | proved |
| C38 | operator== of unordered containers via is_permutation | equality of multisets | proved |
| C39–C42 | constructors, assignment, move, swap with allocators and propagation traits | ownership in the representation predicate | proved for vector, small_vector, static_vector, compact_vector (assignments of another size only if nothing throws), segmented_vector, segmented_devector, devector (assignments that keep the storage of the target) |
| C43 | begin, end, ++, --, nth, index_of, at, operator[], front, back of every container (Access) | a walker visits the list / a getter finds the list; from the representation predicates | proved |
| C44 | all programs, in an environment that does not throw (Calm, CalmAll, CalmWorld) | `Calm L m`: `m` throws only exceptions in `L`, for every function of the model; combined with the failure conditions of the specification | partial: false for devector and segmented_devector near max_size() |
| C45 | push_back, push_front, pop_back, pop_front (Cost, CostVec, CostDev, CostSeg) | `cost`, `vcost`: what a program does to the counter of element operations and allocations and to the data members; potential function over the free space | proved for vector, small_vector, segmented_vector, segmented_devector; partial for devector (programs without push_front, or without push_back, or without pops), false in general (`devector_ends_quadratic`). Not counted: destructors (at most one per element constructed) and the copying of pointers in the table of segments |
| C46 | all modifiers of vector, small_vector (CostVec2, PropWork), devector (CostDev4, CostDev5, PropDevCost), static_vector (CostStatic), segmented_vector (CostSeg2; PropSegCost), segmented_devector (CostSegDev to CostSegDev7, PropSegDevCost) and compact_vector with its constructors (CostCompact, PropCompactCost) | `vcost` for each function; the specifications `Sq.Op.work` and `Dq.Op.work` are the documented numbers of elements | partial: without insert(pos, first, last) for input iterators, for which it is false (`vector_insert_input_quadratic`, `smallVector_insert_input_quadratic`, `devector_insert_input_quadratic`, `staticVector_insert_input_quadratic`, `segmentedVector_insert_input_quadratic`, `segmentedDevector_insert_input_quadratic`; a product bound is proved), and for compact_vector without all functions reading input iterators (`compactVector_input_quadratic`; the bounds m² / 2 and m · n + m² / 2 are proved from both sides) |
| C47 | all modifiers of vector, small_vector (PropStorage), devector (PropDevCost), segmented_vector (PropSegCost), segmented_devector (PropSegDevCost) and the small flat containers (PropFlatCost) | `Asked`, `Used`: states of programs that ask for at most P elements; induction with the bound on the end of storage from C46 | proved for vector, small_vector and all small flat containers: max(capacity before, N, 3P/2), and for segmented_vector: max(capacity before, P + N); partial for devector: max(capacity before, 2P) for programs without resize_front, resize_back, reserve_front, reserve_back, for which it is false (`devector_storage_unbounded`); partial for segmented_devector: a modifier adds at most one segment more than is missing at its end (`segmentedDevector_storage_partial`), but programs have no bound (`segmentedDevector_storage_unbounded`, `segmentedDevector_queue_length_error`) |
| C48 | all lookups and modifiers of the 16 flat containers, comparisons included (CostFlat, CostUnord, CostFlat2, PropFlatCost) | `vcost` for each function; `Flat.Op.work` and `Unord.Op.work` give the bounds | partial: lookups and single modifiers proved; for erase_if of ordered containers, range construction, list assignment and single insertion into unordered sets and maps the documented bound is false (`*_quadratic`, `*_insert_linear`), the true bounds are proved (`*_work_partial`) |
| C49 | all modifiers of vector, small_vector, static_vector, devector (KeepVec, KeepDev, PropKeep) | `vcost` with the data members: beginning and end of the storage unchanged, for each function; the cells before the place of the operation from the specifications of the operations | proved. The documentation claims more for reserve_front and reserve_back, see 25 |
| C50 | constructors, copy and move construction, copy and move assignment, swap, destructors of all 23 containers (CostTwo to CostTwo5, PropTwoCost) | `Price`, `WOp.price`: what a step of a program with several containers may cost, from the sizes and allocators seen before the step; `vcost` for each function, and `Spends` for the segmented containers, whose source ranges are described by `Seg.Offers` | proved; constructors of the flat containers are in C48. The documentation of small_vector's move constructor claims less, see 27 |
| C51 | the comparators (key equalities) kept by the 16 flat containers: which one each function uses, how constructors, assignments and swap pass them on (Keyed, PropKeyed) | programs in which the containers carry comparators of an arbitrary type `P`, interpreted by a family of orders; `Keyed.Run` is the history on lists with comparators; invariant per container under its own comparator | partial: false after an assignment that throws, see 28. Copying and swapping comparators does not throw in the model |
| C52 | the bodies of the move assignments with both references bound to the same object, for all containers (SelfMove, SelfMove2, PropSelfMove) | programs whose containers have self move assignment as one more modifier (`withSelf`), by the same induction as the other programs; what it leaves is part of the abstract meaning | partial: undefined for devector whenever there is free space in front of the elements (`devector_self_move_ub`), see 29; proved without such space. Self move assignment of an allocator or comparator is taken to leave it as it was |
| C53 | the size computations of compact_vector, devector, segmented_vector and segmented_devector over 64-bit words (Capacity2) | arithmetic; the `*64_eq` theorems identify them with what the container models compute | proved under `capacity() <= max_size()`, which segmented containers can violate (C27, disagreement 10); an example shows the wrap-around |
| C54 | the devector and compact_vector models of C16 to C20 (PropStrong) | the specifications of the operations give the same representation after an exception, which determines data members, blocks and cells | proved; insertion of several elements into a devector is excluded (C20) |
| C55 | the small flat containers of C28 to C37 (PropFlatInside) | invariant over sequences of operations: internal storage, no allocation | proved |
| C56 | the 8 flat sets and maps with unique keys (Present, PropPresent) | `lower_bound`/`find` meet the equivalent element, so every operation ends in the branch that only reads (`exec_here`); for the `emplace` that appends first, the representation determines data members and cells | partial: `emplace` of a full small_unordered_flat_map reallocates (`smallUnord_emplace_present`), see 30; also if an equality throws in an `emplace` that appends first, see 4 |
| C57 | the worlds of C12 and C32 for small_vector and the small flat containers, the client restricted to what fits (Stays, StaysWorld, StaysSmall, PropStays) | a calculus for programs that neither allocate nor throw bad_alloc and keep the members on the internal storage (`stays`), then induction over the steps of a world (`Confined.runOps`) | proved |
| C58 | the modifiers of C30–C34 on small and static flat containers (KeepFlat, PropFlatKeep) | `Keeps` of C49 for every modifier of the flat containers, induction over the operations (`Correct.runOps`); the positions of elements from `Op.Result` | proved |
| C59 | insert, emplace, try_emplace with and without hints, insert(first, last), operator== of the flat containers, operator=(initializer_list) of the small ones (PropFlatOrder) | `Op.Result` of every insertion gives the merge of the old elements with one value; induction over the program; sequences in order with the same elements are equal | proved |

## 3. Disagreements between code and properties

Proved by concrete programs in the model (theorem in parentheses):

1. `small_vector::swap` (and the same text in all small flat containers): propagating unequal allocators, one container
   internal and one on the heap, and a throwing move: a block ends up with the wrong allocator (`smallVector_swap_throw`).
2. `static_flat_*::operator=(initializer_list)` neither sorts nor removes duplicates (`staticFlat_assign_unsorted`);
   `static_unordered_flat_{set,map}` do not remove equal keys (`staticUnord_assign_duplicates`).
3. `insert(const value_type&)` of ordered unique flat containers: if the copy assignment into the gap throws, a duplicate
   remains (`smallFlat_insert_throw`, `staticFlat_insert_throw`).
4. `emplace` of `small_unordered_flat_map`, `static_unordered_flat_set`, `static_unordered_flat_map`: if the equality throws
   after the element was appended, it stays (`smallUnord_emplace_throw`, `staticUnord_emplace_throw`).
5. `erase(const Key&)` of unordered multi containers with a key that is part of an element: wrong elements are erased, or a
   destroyed object is read (`smallUnord_erase_alias`, `staticUnord_erase_alias`).
6. heterogeneous `count(x)` of unique containers is at most 1 (`smallFlat_count_heterogeneous`,
   `staticFlat_count_heterogeneous`, `smallUnord_count_heterogeneous`, `staticUnord_count_heterogeneous`).

7. `compact_vector::assign_fill_n/assign_range` (compact_vector.hpp:1189-1211, 1229-1273), used by all assignments: if an
   element constructor throws, `clear()` returns the new block with size 0 (`compactVector_assign_throw`).
8. `compact_vector::resize(n, value)` with `value` an element copies from a moved-from object
   (`compactVector_resize_alias`); a throwing `resize` loses the old values (`compactVector_resize_throw`, not a violation
   of a stated property).

9. `segmented_vector::swap` (segmented_vector.hpp:788-809): with unequal propagating allocators they are exchanged twice
   (`segmentedVector_swap_propagate`); likewise `segmented_devector::swap`
   (segmented_devector.hpp:1156-1177, `segmentedDevector_swap_propagate`).
10. `segmented_vector::grow_storage`: `max_size() - capacity()` wraps (`segmentedVector_exceeds_max_size`); likewise
   `segmented_devector::grow_storage_front` and `grow_storage_back` (`segmentedDevector_exceeds_max_size`).

11. `devector::reset` (devector.hpp:1385-1416) deallocates `first_` instead of `bos_` (`devector_assign_move_reset`,
   `devector_assign_copy_reset`).
12. `devector::insert_aux_shift_to_back`, case `q30 >= p30, p10 <= q20 < p20`: the guard at 2746 destroys `[q10, q10)`; objects
   leak on exception (`devector_insert_throw_back`).
13. `devector::insert_aux_shift_to_front`, case `q20 > p10, q30 <= p20, p20 < q40 <= p30`: the guard at 3676 destroys
   `[q10, q20)` instead of `[q10, q11)` (`devector_insert_throw_front`).
14. `devector::insert(pos, n, value)` and `resize*(n, value)` with `value` an element (`devector_insert_alias`,
   `devector_resize_alias`).
15. `devector` throws length_error although there is room when half as much storage again exceeds max_size()
   (`devector_length_error`). `segmented_devector::grow_storage_front` and `grow_storage_back` count the free space at the other end
   against max_size() (`segmentedDevector_length_error`).

16. `segmented_devector::insert_range` (forward iterators, segmented_devector.hpp:2424) computes `data_.last_ - n` although it may
   lie before the storage; the iterator arithmetic reads the table of segments out of range
   (`segmentedDevector_insert_range_ub`).

17. `devector::push_front` and `push_back` are documented as constant (devector.md:1014-1115). Programs that push at both ends and pop
   cost more than any constant times the number of elements and operations: each push may move all elements
   (`devector_ends_quadratic`).

18. `insert(pos, first, last)` of `vector`, `small_vector`, `devector`, `static_vector` and `segmented_vector` is documented as linear in
   distance(first, last) plus linear in the number of elements that make room (vector.md, small_vector.md, devector.md:986,
   static_vector.md, segmented_vector.md:919). For input iterators the code inserts one by one (vector.hpp:1808-1822,
   small_vector.hpp:2246-2260, devector.hpp:4056-4069, static_vector.hpp:703-717, segmented_vector.hpp:1604-1618): the cost is the
   product of the two (`vector_insert_input_quadratic`, `smallVector_insert_input_quadratic`, `devector_insert_input_quadratic`,
   `staticVector_insert_input_quadratic`, `segmentedVector_insert_input_quadratic`).

19. `devector::resize_back`, `resize_front`, `reserve_back`, `reserve_front` get new storage if there is no room at their end, and keep
   all free space at the other end. `k` rounds of resize_back(1) and pop_front() on an empty devector make the capacity `k`, though
   there is never more than one element (`devector_storage_unbounded`); eventually resize_back throws length_error. (push_back
   and insert use the free space at the other end.)

20. `devector::insert(pos, n, value)` is documented as constant plus linear in min(distance(begin(), pos), distance(pos, end()))
   (devector.md:960): it is also linear in `n`, of course. `Dq.Op.work` includes `n`.

21. `erase_if` of the ordered flat containers is documented as linear (small_flat_set.md:1373, small_flat_map.md:1697,
   small_flat_multiset.md:1324, static_flat_set.md:1272), but erases one element after the other, moving all elements behind each time:
   n(n-1)/2 move assignments if all n elements are erased (`smallFlat_eraseIf_quadratic`, `staticFlat_eraseIf_quadratic`). The unordered
   ones are linear.

22. Constructors from a range or list and the assignment of a list are documented as linear (small_flat_set.md:223, 246, 363;
   small_flat_map.md:249, 272, 389; static_flat_set.md:187, 207; static_unordered_flat_set.md:171, 191; small_unordered_flat_set.md:341),
   but insert one element after the other. Descending keys into an ordered container, or different keys into an unordered set or map, take
   at least m(m-1)/2 operations (`smallFlat_range_quadratic`, `smallFlat_assign_quadratic`, `staticFlat_range_quadratic`,
   `smallUnord_range_quadratic`, `smallUnord_assign_quadratic`, `staticUnord_range_quadratic`).

23. "The complexity of insertion or removal of elements is O(1)" (small_unordered_flat_set.md:67, static_unordered_flat_set.md:66):
   every insertion into a set or map that adds an element compares it with all the others (`smallUnord_insert_linear`,
   `staticUnord_insert_linear`). Likewise `operator[]` of the ordered maps is documented as logarithmic (static_flat_map.md:1397), but
   linear when it inserts (`Flat.Op.work`).

24. The constructor of `compact_vector` from a range is documented as linear in distance(first, last) (compact_vector.md). For input
   iterators it appends one by one, each time moving all elements to new storage (compact_vector.hpp:1011-1041): more than m² / 2
   operations for m elements (`compactVector_input_quadratic`). The same holds for assign (`compactVector_assign_input`).

25. doc/devector.md:660 and 694 say that references and pointers to elements remain valid if reserve_front or reserve_back change the
   capacity. They move the elements to a new block and deallocate the old one (devector.hpp: reserve_front, reserve_back;
   `devector_reserve_references`). The sentence is right for the segmented containers, from whose documentation it seems to stem.
26. A segmented_devector that is used as a queue grows without bound. emplace_back allocates new segments if there is no room behind the
   elements, and pop_front leaves the segments before them as they are, so that k rounds of push_back and pop_front make the
   capacity at least k, though there is never more than one element (segmented_devector.hpp:711-731, 1412-1502;
   `segmentedDevector_storage_unbounded`). In the end push_back throws length_error in an empty container
   (`segmentedDevector_queue_length_error`). devector moves its elements within the storage instead (`devector_storage_partial`).
27. The move constructors of small_vector are documented as "constant in the best case, linear in `N` in the worst case" (small_vector.md:276;
    the same sentence is in the eight documents of the small flat containers). With an allocator that is not equal to that of the source
    all elements are moved, also if there are many more than `N` (small_vector.hpp:1798-1818): `smallVector_move_linear`. The code is as
    it must be; the documentation should exclude this case, as that of segmented_vector does.
28. The copy assignments of the flat containers, and the move assignments that move elements one by one, take over the
    comparator (key equality) before they assign the elements (small_flat_set.hpp:1527-1529, 1545-1554; static_flat_set.hpp:227-233,
    and the others). If assigning an element throws, elements of the old order stay under the new comparator: a set {1, 2} is
    left descending by its key_comp(), and find(1) returns end() (`smallFlat_comparator_throw`, `smallUnord_comparator_throw`).
    The move constructors move the comparator out of the source (340, 350) while the move assignments copy it, so what a moved-from
    container compares with is up to the comparator (`mv` in `Keyed.next`).
29. `d = std::move(d)` of a devector with free space in front of its elements is undefined (`devector_self_move_ub`, for every
    such devector): `assign_move` (devector.hpp:2005-2041) has no check for self assignment and calls `reset`, which has the defect of
    number 11 and passes `first_` to `deallocate`. The other containers are left valid; those that own heap storage lose
    their elements.
30. `emplace` and `emplace_hint` of small_unordered_flat_map append the new element before they look for its key
    (small_unordered_flat_map.hpp:1733-1746). If the container is full, `emplace` of a key that is present allocates, moves all elements
    to the new storage and then removes the appended one: nothing is inserted, but all references are invalid, an internal
    storage is given up for good, and the call can throw `bad_alloc` or `length_error` (`smallUnord_emplace_present`). All
    other insertions look first.

## 4. Trusted base

* The Lean 4.33.0 kernel; axioms of all theorems at most `propext`, `Classical.choice`, `Quot.sound`.
* The hand translation from C++ to Lean.
* `std::find_if`, `std::lower_bound`, `std::remove_if`, `std::is_permutation`, … are modelled by their libstdc++/textbook
  algorithms, at the places cited in the comments. (No function of the library sorts.)
* Comparators and equalities are total pure functions except where an `Env`/`Order`/`KeyEq` flag lets them throw;
  predicates are pure.
* Out-of-bounds pointer arithmetic without access is not flagged, except where stated.
* Not modelled: iterators as objects, `constexpr` and SFINAE plumbing, `data()`, `value_comp` and other observers without
  effect, `std::hash` specialisations, input iterators that are single-pass (ranges are lists of values), `max_size()`
  computations (a parameter), and allocators with fancy pointers.
