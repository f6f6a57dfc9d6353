# Formal model of lpenz/sqrid in Lean 4

`/verif/lean` holds a Lean 4 model of the library in `/repo/src/sqrid` and machine-checked proofs of
the properties in `properties.jsonl`. Nothing is executed or sampled: every property is a theorem over
all parameters (grid dimensions, contents, movement functions, call histories).

## Approach

- **Outcomes.** `Out α` = `ok a | panic | ub | timeout`. `panic` is a Rust panic (failed `expect`,
  slice index out of range, arithmetic overflow with overflow checks), `ub` is an out-of-range
  `get_unchecked`, `timeout` is only produced by the fuel argument of unbounded loops. Termination
  theorems have the shape "there is N such that for every fuel >= N the result is `ok ...`".
  A Rust `Result<T, Error>` is `Except Error T`.
- **Integers.** Values are `Int`; every machine type is a range `[lo, hi]` and every cast, checked
  operation and overflow is explicit.
- **Targets.** What a program does also depends on how it is built. `Target` says whether arithmetic
  overflow panics (debug builds) or wraps around (release builds), and whether `usize` has 64 or 32 bits.
  The model and the theorems have a `Target` as a parameter, so a theorem holds for all of them unless
  it has a hypothesis about it (`Target.checks`, `Target.wide`, `Fits`, `FitsSearch`).
- **Types.** `BTy` is a type implementing `BoundedInt` (builtin or `BoundedX<MIN,MAX>`), `PosTy` a pair
  of them (a type implementing `PosT`); `Pos<XMAX,YMAX>` is `PosTy.pos XMAX YMAX`. Const generics are
  ordinary parameters of the model functions.
- **Containers.** `Grid` is a list of SIZE elements, `Gridbool` a list of WORDS 32-bit words.
  `HashMap/HashSet` are association lists (in C112 tables with any hash function), `BTreeMap/BTreeSet` association lists sorted by the derived
  `Ord`, `BinaryHeap` is a list from which the maximum is popped; C114 models the array and the sifting of std too, and shows that
  this makes no difference. Other std collections are trusted to implement these abstract behaviours.
  The builders behind `derive(Debug)` (C119, C134) and the default methods of std's iterators (C125, C130) are modelled from the published text of std.
- **Iterators** are state machines (`next`, `next_back`); loops over them are a generic driver.
- **Searches.** The model of the Rust code is written against a set/map interface, as in the code.
  Proofs go through a pure version of each algorithm over functional maps; a simulation theorem moves
  the result to every implementation.

Layout: `Verif/Model/*` (the code, each definition citing file and lines), `Verif/Spec/*` (independent
vocabulary for the statements), `Verif/Proofs/*` (lemmas), `Verif/Props/*` (property theorems, each
followed by a non-vacuity `example`).

When the code violates a property as stated, the negation is proved with a concrete witness
(`Cnn_..._refuted`), and the strongest true version found is proved as `Cnn_..._partial`.


## Per-property plan

- **C01 Bounded integer construction is exact** — model `new`, `try_from`, `new_unwrap` over `Int` with explicit base-type ranges; case analysis.
- **C02 Bounded integer arithmetic is exact and closed** — model `checked_add/sub`, `inc`, `dec`; case analysis with `omega`.
- **C03 No bounded integer value obtained through the conversion/default API is out of bounds** — full claim is FALSE (`From<bool>` and derived `Default` are unchecked): refuted with witnesses; `_partial`: holds iff 0 (and 1) are in MIN..=MAX.
- **C04 BoundedInt::iter enumerates the type from both ends** — state machine `next/next_back`; invariant over arbitrary schedules (lists of front/back calls).
- **C05 Pos::new / try_from((u16,u16)) accept exactly the positions of the grid** — direct, all u16 parameters.
- **C06 Pos::try_from((i32,i32)) rejects coordinates outside the grid** — FALSE because of `as u16` truncation: refuted (65536 accepted as 0); `_partial` for coordinates in 0..=65535 and exact characterisation of accepted inputs.
- **C07 Index conversion is a bijection** — index arithmetic proved over `Int` with explicit usize overflow checks.
- **C08 next/prev walk the grid in reading order, next_y/prev_y in column order** — `next/prev/next_y/prev_y` versus index +-1.
- **C09 Pos::iter yields each position exactly once in reading order** — generic `collect` driver over the iterator state machine; induction on remaining distance.
- **C10 Double-ended position iteration never repeats or skips** — schedule invariant as in C04.
- **C11 size_hint of position iterators brackets the number of remaining items** — FALSE (every `size_hint` is a constant): refuted for each of the five iterators; what each one returns is proved exactly, as the set of states in which the hint is right.
- **C12 iter_range yields exactly the rectangle** — FALSE when the bottom row is the last row and the right edge is not the last column, and for inverted ranges: refuted; `_partial` under the exact condition, plus what is lost and what an inverted range yields.
- **C13 iter_in_x / iter_in_y yield exactly a column / a line** — FALSE for types whose MIN is not 0 (both iterators start at 0): refuted exactly for those; `_partial` for MIN = 0, and `_exact` gives the sequence yielded in every type.
- **C14 tlbr_of computes the tight bounding box** — fold invariant.
- **C15 manhattan is the L1 metric** — exact result for every coordinate type (value or panic), refutation of the claim for signed and offset types, metric laws on zero-based types.
- **C16 inside tests membership of the rectangle spanned by two corners in any order** — case analysis.
- **C17 flip_h/flip_v mirror positions** — closed form then laws.
- **C18 rotate_cw/rotate_cc on square grids** — closed form then laws.
- **C19 is_corner and is_side classify the border** — case analysis.
- **C20 Pos + Dir moves by exactly one unit or reports OutOfBounds** — closed form; inverse law.
- **C21 direction_to leads to the destination** — closed form of the step; induction on distance.
- **C22 Direction algebra** — finite group laws by cases; iteration lemma by induction.
- **C23 Direction <-> tuple conversion is a partial bijection** — case analysis over all Int pairs.
- **C24 Direction parsing accepts exactly the documented symbols** — parsing over all strings (List Char); round trip.
- **C25 Display of a Dir parses back** — FALSE for diagonals (`Display` prints two letters): refuted; `_partial` for cardinals.
- **C26 Dir::iter / Dir::next enumerate directions clockwise** — state machine; `Dir::next::<false>` on NW panics: refuted; `_partial` for the directions of the mode.
- **C27 Grid access is memory-safe and behaves as a map** — grid as list with explicit `ub` outcome for get_unchecked out of range; induction over histories.
- **C28 The declared SIZE of a Grid is checked** — FALSE (the assert constant is never evaluated): model constructor with arbitrary SIZE, exhibit `ub`; `_partial` when SIZE matches.
- **C29 Grid iteration, iter_pos and collect agree** — list lemmas.
- **C30 Grid::extend is last-write-wins** — fold induction.
- **C31 Grid::try_from(Vec<Vec<T>>) places rows and pads with default** — row/column fold induction.
- **C32 Grid::extend_from_vecvec writes rows and reports overflow** — FALSE beyond u16 (wraps): refuted for XMAX=65535; `_partial` when rows fit in u16 indices.
- **C33 Grid::flip_h/flip_v relocate every cell** — nested swap loop: loop invariant.
- **C34 Grid::rotate_cw/rotate_cc relocate every cell** — ring loop with three swaps: loop invariant on processed orbits.
- **C35 Grid::line is the slice of a row** — slice lemmas.
- **C36 Negating a Grid negates every cell** — map.
- **C37 Gridbool behaves as a map from positions to bool under any history** — words as `BitVec 32`; refinement to a Boolean function by bit lemmas; induction over histories.
- **C38 Gridbool iteration agrees with get** — list lemmas over the refinement.
- **C39 Collecting into a Gridbool** — fold invariant.
- **C40 Gridbool::flip_h/flip_v relocate every bit** — loop invariant.
- **C41 Gridbool::rotate_cw/rotate_cc relocate every bit** — FALSE for every even size >= 2: refuted for all even sizes; `_partial` for odd sizes.
- **C42 Gridbool equality is extensional** — FALSE (padding bits): refuted; `_partial` when the cells fill the words, or both built from the same start.
- **C43 The WORDS/SIZE computed by the type macros always fit** — arithmetic for all u16 maxima.
- **C44 Every PosT type has consistent WIDTH/HEIGHT constants** — FALSE for integer tuples (WIDTH = MAX-MIN): refuted; `_partial` for Pos.
- **C45 SetPos implementations are interchangeable** — lawful-set interface, three instances, induction over histories.
- **C46 MapPos implementations are interchangeable** — lawful-map interface, three instances.
- **C47 camefrom_into_path only returns real paths** — structural recursion on maxiter; induction.
- **C48 camefrom_into_path terminates with the documented error** — FALSE on tall grids (limit WIDTH*WIDTH+1): refuted; `_partial` exact result in terms of chain length, full claim when WIDTH>=HEIGHT.
- **C49 bf_iter yields the breadth-first layers** — pure BFS layer invariant against an independent distance spec (walk existence).
- **C50 bf_iter terminates and visits each reachable position once** — corollary + termination by finiteness.
- **C51 bfs_path returns a valid path** — from the came-from invariant.
- **C52 bfs_path returns a shortest path to a nearest goal** — layers are distances.
- **C53 bfs_path fails only if no goal is reachable** — FALSE: (a) origin satisfying `found` is not reported, (b) tall grids give Err(Loop): both refuted; `_partial` exact characterisation.
- **C54 bfs variants agree** — simulation between lawful map/set implementations.
- **C55 astar_path returns a valid path** — came-from entries are reverse go-edges.
- **C56 astar_path always terminates without panicking** — termination measure on cost table + heap.
- **C57 astar_path fails only if dest is unreachable** — FALSE on tall grids, and with diagonals even on squares (Err(Loop)): refuted; `_partial` for D=false and WIDTH>=HEIGHT, and `Unreachable iff unreachable` in general.
- **C58 astar_path returns a shortest path** — FALSE (stale heap entries overwrite `from`): refuted for both modes; `_partial` when dest is reachable by a monotone path (distance = manhattan).
- **C59 astar variants agree** — simulation.
- **C60 AstarIterator first reaches each position at its true distance** — consistent-heuristic invariant on the iterator.
- **C61 ucs_path returns a valid path** — as C55.
- **C62 ucs_path fails only if dest is unreachable** — FALSE on tall grids; `_partial` otherwise.
- **C63 ucs_path returns a cheapest path** — FALSE (stale heap entries): refuted; `_partial` when the step cost depends only on the entered cell (includes uniform cost).
- **C64 UcsIterator yields positions in cost order** — Dijkstra invariant on the iterator.
- **C65 ucs variants agree** — simulation.
- **C66 Step-cost overflow is the only way ucs_path can panic** — panic only through checked addition.
- **C67 Search algorithms agree on reachability and distance** — combination.
- **C68 Printing a Grid draws every cell at its place** — text as a list of characters; the two loops of the helper by induction over lines and cells, against an independent `picture`. The padding of std that it uses is characterised by itself (`C68_pad`).
- **C69 The text of a Gridbool determines it** — as C68; faithfulness from equal lengths of the padded cells.
- **C70 The text of a Pos determines it** — decimal numbers contain no comma and determine the number.
- **C71 The named positions and sizes of Pos** — constants evaluated in debug arithmetic for all XMAX, YMAX.
- **C72 Conversions of positions lose nothing** — conversions function by function; round trips by unfolding.
- **C73 The order of positions** — derived Ord as lexicographic comparison; sortedness of the listing of all positions by induction over ranges.
- **C74 Comparison of grids, raw arrays and iter_mut agree with get** — derived comparisons as recursion over the array; the first difference located by induction, translated to positions by the index bijection.
- **C75 Raw words of a Gridbool** — bit layout; order of words decided by the highest differing bit.
- **C76 to_usize and width on every position type** — claim refuted for signed types; exact value of the index functions for every type; the claim for grids at (0,0).
- **C77 Flips and rotations on every position type** — claim refuted for types with MIN /= 0; exact value for every type; exact condition under which the claim holds.
- **C78 Error texts** — finite case analysis over the enumeration (this is the whole domain).
- **C79 Safe code cannot read outside of a grid** — inductive closure of all safe ways to make a Pos, invariant by induction over it; public fields and From<bool> break the claim: refutation and exact behaviour.
- **C80 The order of a breadth-first traversal** — the layers as an independent list function (first occurrences in scan order); induction over positions, directions and layers.
- **C81 Which goal a breadth-first search picks** — the search loop related to the flattened traversal by induction.
- **C82 Distances in an open grid** — distance in moves as l1 / l-infinity; path existence by explicit walk, lower bound by induction over paths; then C49/C52/C57/C62.
- **C83 From a position to itself** — first iteration of the search loop evaluated symbolically.
- **C84 Searches look only where they can get** — invariant: every position in the front (heap) is reachable; congruence of the loops by induction over the fuel, for every set / map implementation.
- **C85 Searching in the other direction** — the reversed path with opposite directions; distances are equal both ways; then the exact outcomes C53 / C62.
- **C86 Search iterators are fused** — case analysis of one call to next, for every state and implementation.
- **C87 More movements never hurt** — a path stays a path under extension; then the exact outcomes of the searches.
- **C88 A* with diagonals goes straight** — the next position of the line gets the strictly smallest priority, alone, and is not yet recorded; induction over the line.
- **C89 Where a returned path may lead** — invariants of the best-first search (priority popped so far bounds cost + heuristic of every popped position), along the way back.
- **C90 Prefixes of a breadth-first path are shortest** — exchange argument on shortest paths.
- **C91 Returned paths have no cycles** — the way back of the came-from map is determined by the position; two equal positions would give equal prefixes.
- **C92 A Sqrid type fits its own positions** — const parameters of a Sqrid type as a structure; arithmetic of the macros; the functions are instances of IsIter / IsSearch of the earlier theorems.
- **C93 The searches are memory-safe with any position type** — refuted by concrete types for each of the three searches; under SIZE >= positions by simulation with a longer array; absence of ub for std collections by induction over all loops.
- **C94 Side effects of closures do not change results** — closures as state transformers over an arbitrary world; the loops with effects simulate the loops without, by induction.
- **C95 Order and number of the calls of a closure** — logging wrapper around the closure; Hoare rules for every loop; invariant: the log is the sweep of the items yielded.
- **C96 bf_iter with any closure** — invariant: the items found are the first answers of the log, in order.
- **C97 bfs_path with any closures** — as C96, plus the log of the predicate.
- **C98 astar_path with any closure** — invariant over heap and cost table with arbitrary answers; measure: heap size plus remaining costs.
- **C99 ucs_path with any closure** — as C98, with overflow excluded by a bound on the cost of a step.
- **C100 Searches with walls that change** — invariant: the source of each entry is an expanded position and the step is in the log; then the way back never gets stuck and uses granted steps only.
- **C101 Gridbool is memory-safe with every position type** — absence of ub by composition over all functions; exact outcome of get and set by bit lemmas.
- **C102 Order of directions** — case analysis over all triples of directions.
- **C103 Release builds agree with debug builds that do not panic** — relation between the outcomes of the same function in the two builds, preserved by every operation; induction over every loop.
- **C104 Positions in release builds** — wrapping arithmetic as remainder; injectivity when the largest index fits; refuted by a pair of (u64, u64) positions.
- **C105 Uniform-cost search in release builds** — refuted by a concrete grid; termination from C99 / C100 for arbitrary answers, validity and unreachability by the invariant that every recorded movement is an edge from a reachable position.
- **C106 Pos on every machine** — bounds of the products for all XMAX, YMAX up to 65535; refuted for Pos<65535, 65535> with 32 bits.
- **C107 Sets, maps and breadth-first traversal in every position type** — the simulation lemmas of the hash and btree collections hold for every position type; the layers by induction with any bound on the distances.
- **C108 Breadth-first search in every position type** — the way back as a function of the path found (wayOut), whose arithmetic is evaluated in every type; refuted for (i8, i8); never a path for the wide types because the loop bound wraps to 1 or panics.
- **C109 A* in every position type** — as C108 for the best-first machine, with a list of reachable positions instead of the whole grid as the measure; panics excluded if the sums fit.
- **C110 Uniform-cost search in every position type** — as C109 with the sums of costs.
- **C111 Path reconstruction in every position type** — the loop of camefrom_into_path by induction, then the arithmetic before it by cases.
- **C112 Hash sets and maps work with every hash function** — the calls to the hasher as a list; hash tables with one list for each hash, simulated by functions as the other collections are, then the searches as for these.
- **C113 The texts of bounded integers, and the texts for debugging** — the texts as lists of characters; the digits are injective, and no digit is a comma or a sign.
- **C114 Nothing depends on how the priority queue arranges its entries** — the order of two entries is total, so a queue that pops a greatest entry pops the greatest; the iterators with the queue and with the model's list are related by having the same entries; std's sifting proved against the heap order.
- **C115 The searches work with every correct collection of one's own** — a lawful implementation is simulated by a function, by its laws, then as for the crate's own.
- **C116 Grid with every position type** — no undefined behaviour by going through each function; the position with a given index by division; the arithmetic of the builds from C76 and C104.
- **C117 How far from optimal a returned path can be** — invariants of the best-first search: each recorded step was pushed by an expanded position and popped before the destination; the length bound from C89 and C91 by counting distinct positions.
- **C118 Where in which grid a problem lies does not change the answer** — simulation between the two runs: the states are equal up to the renaming, and the order of the heap is invariant under offsets; the way back is the same walk, and each grid has its own limit.
- **C119 The texts for debugging show everything** — the builders of std (tuple, struct, list, indentation) are modelled as functions on texts; a text is readable when it and its end are determined if a comma, blank or bracket follows; each builder keeps this.
- **C120 How often the best-first iterators yield a position** — two more invariants of the best-first machine: every item in the heap or yielded has its own source, popped before; without diagonals a second push of a position comes from a neighbour further from the destination, and there is no third.
- **C121 The unit in which costs are given does not matter** — lock-step simulation of the best-first machine: costs and queue entries are multiplied, the order of the entries is the same, and the unexplored positions keep the largest usize, below which the invariant of the search keeps the sums.
- **C122 Mirrored and rotated problems have equally good answers** — paths, distances and costs are transported along the symmetry by induction on paths; then the exact outcomes of the searches (C49, C53, C57, C62, C63) on both sides. The differences are concrete runs.
- **C123 Grid and Gridbool under any history of writes, flips and rotations** — each operation of a grid represents an operation on functions, by the lemmas of C33, C34, C40 and C41; induction on the history.
- **C124 Going by way of another position** — valid paths compose (C51, C55, C61); then the exact outcomes of the searches from a to c (C53, C57, C62, C63).
- **C125 std's methods on the iterators over positions and bounded integers** — std's default methods are modelled on top of next and next_back; each of them takes items from the list of the items that are left, by induction; induction on the sequence of calls.
- **C126 Round trips between Grid, Gridbool and their iterators** — the collected gridbools are represented by functions with no other bit set; equal representations are equal words; the rest from C29, C38 and C39.
- **C127 Cheaper steps and more steps** — the costs of the same path are compared by induction; then the exact outcomes of the uniform-cost search (C62, C63). The exceptions are concrete runs.
- **C128 However large the grid, A* looks only near the origin and the destination** — as long as the destination has not been popped, some position of a shortest path is in the heap with a priority of at most its distance plus the heuristic; so every popped entry is not above the largest of these; positions in that range lie in a square.
- **C129 What the best-first iterators have found when they end** — the invariants of the best-first machine that hold for every heuristic: recorded costs are costs of paths, and with an empty heap every step is relaxed.
- **C130 std's iterator methods on the iterators that go forward only** — lists as the reference: a relation between the state and the items that are left is preserved by one call of next, then by induction by each method.
- **C131 Which neighbour each step of a returned path comes from** — one more invariant of the best-first machine: entries for the same position are pushed with smaller and smaller priorities by positions expanded later and later, so they come up in the opposite order; the recorded direction is the one of the last that came up. The road: the cheapest costs by a potential, then the path is followed back.
- **C132 Sequences of flips and rotations** — the pictures that the operations paint (C123) form a group of eight, or sixteen when the rotations leave the middle alone; one more operation after each normal form gives a normal form, and induction on the sequence does the rest. The eight differ at two neighbouring positions in a corner.
- **C133 How much work a search does depends on how near the destination is** — the layers of breadth-first search are the distances (C44), so the goal is in one of the first n. For the others, what has been popped before the destination has a priority not above that of the destination; without diagonals and for uniform-cost search this and the bounds of C120 on how often a position is popped give the number of calls, and with diagonals no two entries for a position have the same priority. The path stays among positions cheaper than the destination (C89) and visits none twice (C91).
- **C134 The texts for debugging with format options** — std's pad_integral is modelled with all its options. An integer is a run of characters that no filling and no end of a text is made of, so the run can be found again; its digits, with zeros in front or not, have its value.
- **C135 How much a search holds in memory** — the best-first iterators hand out everything in the frontier before they end, one entry a call, so the bounds of C120 and C129 on the number of items also bound what is waiting. For the traversal, by induction on the calls: the state holds the next of the layers of C49 and C50.
- **C136 A returned path leads to positions further and further from the origin, or back by one step** — C131 for the last position on a best way to the position, C117 if that way is not shorter than the one to the destination, and for A* the colors of a chessboard, which rule out equal distances. The length by telescoping the distances along the path.
- **C137 Between equally near neighbours, the order of the positions decides; A* can take any number of steps too many** — A further clause of the invariant of C131: when a position comes up for the first time, every way from a position that came up before, on which all positions have a smaller priority, or the same and are greater, has come up to its end; else an entry for a position on it would be in the heap and be taken first. The families by C137 at each link and each room; all other steps are forced, around walls because a returned path has no cycles (C91).
- **C138 A returned path stays away from positions that rank behind another way** — As long as the destination has not been popped, some position on the way has an entry that does not rank behind its place on the way; the entry of the other position ranks behind that one, so it is never taken out.
- **C139 A way on which each position comes first is returned** — The invariant: the heap holds one entry for the next position on the way, and all other entries were offered by positions before it; the hypothesis says that it is the first. The recorded directions lead back along the way. The staircase: what the positions along the edge offer is listed.
- **C140 The path of uniform-cost search can be told backwards from the destination** — A further invariant of the best-first machine: the entries that are left for a position that has been popped are strictly worse than its cost. So the first entry that comes up for a position is one of the best, and the neighbour that offered it was the first to be popped of those on a best way; with positive costs a cheapest way to a neighbour is made of cheaper positions. The path is then unique by induction from its end.
- **C141 A* and uniform-cost search take the same way with one bend** — Uniform-cost search by C140, step by step from the destination: of the neighbours at the smaller distance the one on the way is the greatest. A* to the east by C139, as each position on the way is the first of those offered; to the west by C140 as well, as the positions on the way all come up before the other neighbours.
- **C142 Breadth-first search returns the first of the shortest paths in the order of a dictionary** — By C80 the positions of a layer are in the order of the layer before, clockwise from north at each. So by induction over the layers the recorded paths to the positions of a layer are in the order of a dictionary, and each is the first of the paths of its length to its position. The destination is the first goal in this order (C81).
- **C143 Breadth-first search goes north, east, south, west, in this order** — A shortest path without detour has the same steps as the sorted way, up to the order, and nothing with these steps comes before what is sorted; so C142 leaves only the sorted way.
- **C144 With diagonals breadth-first search goes off sideways and comes back** — By C142, and by counting steps: a shortest path has steps in three directions only, and the same number of steps and the same end leave one number free; a path that comes earlier would have more steps in the first direction than there can be, or leave the grid.
- **C145 With diagonals uniform-cost search goes off sideways too, in another way** — By C140, step by step from the destination: of the positions at the smaller distance next to a position on the way, the one on the way is the greatest. The positions after each number of steps are given by the three numbers of steps.
- **C146 The parts of a returned path are what the searches return for them** — Breadth-first search by C142: a path that comes before the rest, or the start, of the path would give one that comes before the whole. Uniform-cost search by C140, which says which neighbour each position is entered from, and that this path is returned: the costs from another position on the path differ by a constant along the rest of it. A*: concrete runs in small grids, for every target.
- **C147 Closing other ways does not change a returned path** — Breadth-first search by C142: closing steps leaves fewer paths, among which the first is still the first. Uniform-cost search by C140: the costs of the positions on the path stay the same and those of the others do not fall, so that the neighbour on the path is still the cheapest and greatest. A*: concrete runs in small grids, for every target.
- **C148 Calculating the path anew before each step leads along the same path, but not with A*, nor with costs that depend on both ends of a step** — By induction over the steps with C146. Costs of both ends of a step, and A* with diagonals: in a concrete grid the first step from each of two positions leads to the other, so by induction the walk never leaves them.
- **C149 One traversal from each position not seen before finds the areas** — By induction over the positions to start from. The set always has the union of the areas so far, which is closed under steps in both directions; by C50 a traversal yields the positions that can be reached, each once; the sets by the simulation of C45.
- **C150 One traversal gives the paths to all destinations** — Breadth-first search: the map of a search has the directions of the items up to the goal (C81); as no position is yielded twice, the further items only add directions, which the way back from the goal does not meet. Uniform-cost search: the same with two more invariants of the best-first machine: with costs of entering no position is pushed twice; and with any costs the first direction of each position is on a cheapest way, which holds for A* without diagonals too.
- **C151 The first goal of uniform-cost iteration is a cheapest one** — By the invariants of C150: the positions come in the order of their costs, and the first direction of each is on a cheapest way; the items before a goal are a prefix of the traversal, whose map gives the same way back.
- **C152 A map of the layers of a traversal shows the way from everywhere** — By C49 each position is in one layer only, that of its distance; the map by the simulation of C46. By induction on the distance: a neighbour with a smaller number is one step nearer, as steps can be taken back, and there is one, the position before it on a shortest path.
- **C153 The positions around a position, and counting around positions** — The list by C20 and the list of the directions; its length by cases on which borders the position is on. Counting: by induction over the list with the simulation of C46; being around each other is symmetric, so that two lists without repetitions have the same members.
- **C154 The smallest rectangle around some positions, and going through it** — C14 determines the corners, so each claim about tlbr_of follows from what C14 says of its result; the positions gone through by C12, in both of its cases, and C16.
- **C155 Cellular automata on a Gridbool** — By induction over the steps. One step: iter_t by C38, the counts by C153, the collected positions by C39; the positions around one in the list of C153 are those of the specification at distance one, both lists without repetitions.
- **C156 A path as a text** — Each character by C24, then induction over the path or the text. Letters: a direction is written as the letters of its steps along the axes; the position between the two steps of a diagonal has the column of one end and the line of the other, so it is in the grid.
- **C157 A map as a text** — Collecting by C39, and which item belongs to which position by C09. The text that is printed by C69: the labels consist of digits, blanks and the fill, so that the marks of the text are those of the cells.
- **C158 Where one can be after an exact number of steps** — Parity and bounds by induction over the way. The program: C49 gives the distance of each layer; a shortest way is made longer by a step from the origin and back, and the parity excludes the other layers. Without walls: induction over n, with a step towards the destination, or to the side if it would arrive too early.
- **C159 Which wall cuts off the destination** — The number of walls with which the destination can be reached is downward closed, since a way around some walls is a way around fewer; bisection by induction over the number of rounds. The answers of the searches by C53, C57 and C62. Searching only when the path at hand is hit: a path that does not enter the new wall stays one; induction over the walls.
- **C160 A shortest way past several positions** — Induction over the number of positions: any way past all of them has a first one that it comes to; the part up to there is no shorter than the path of the search, and the rest is a way past the others. The search by C51, C52 and C53.
- **C161 How many shortest paths there are** — C49 gives the distance of each layer. Induction over the layers: a shortest path to a position is one to a position of the layer before and a last step, and different ones are different. Without walls: induction over the distance by the first step, with the recurrence of the binomial coefficients.
- **C162 Traversals from both ends** — C49 gives the distances; ways back have the same length. A part of a shortest path is a shortest path; without the wall, a shortest path either does not come past it, and is one with the wall, or comes past it once, and the parts before and after are paths with the wall.
- **C163 The positions that all ways lead through** — A path that does not enter a position is still one if that position becomes a wall, and no path enters a wall; so a wall cuts off the destination if and only if all paths enter it, in particular the one given. The answers of the searches by C53 and C57.
- **C164 Running sums** — Sums over rectangles split at any line or column, so each is the sum and difference of four that begin in the corner of the grid. Induction over the positions in the order of iteration: in both orders whatever is to the left of a position and above it comes before it. The collections by C46.
- **C165 Looking along a direction** — C20 tells when the next position exists. Induction over the number of steps to the edge; a straight line leaves a rectangle once and for all. The word stands where the first items along the direction are its letters, C27 for reading them, C09 and C26 for going through everything once.
- **C166 A guard who turns right before walls** — C20 and C22 give each step. The guard looks in one of four directions, so after four steps for each position some state is there for the second time, and from then on everything repeats. Induction over the steps for the set, C45 for its kinds. A wall that the guard never comes to is never the next position.
- **C167 Searching a grid whose opposite edges are joined** — A movement function that comes back in at the opposite edge, in `Spec/Torus.lean`, with the distance round each axis. The distance: each step lowers it by at most one and some step by one. The layers then from those of C49, which only needs that movements stay in the grid. The search: the directions in the map are those of the traversal, and a step back along one of them stays in the grid only if the step it came by did not go past an edge. So the way back is an ordinary path as long as the distance, or stops at an edge after at most as many steps.
- **C168 The arrays of all directions** — The arrays are definitions of the model of dir.rs. Their items by cases on the eight directions; the positions at distance 1 by C153, as the iterators yield the same items.

## Trusted base

- Lean 4.33.0's kernel. The theorems use at most the axioms `propext`, `Classical.choice` and
  `Quot.sound`; the list per theorem is at the end of this file. No `sorry` or `admit`, no axioms of
  our own, no `native_decide`, no `bv_decide`. Concrete runs (`_refuted` witnesses and `example`s) are
  evaluated by the kernel (`decide`, `decide +kernel`).
- The correspondence between the Rust source and `Verif/Model`, which is by reading. Every definition
  cites the file and lines it models, and says where it simplifies.
- `Verif/Spec`: the vocabulary of the statements (positions of a grid, walks, distances, costs, reading
  order, L1 distance, parsing of texts...), written without the model's helpers.
- std: `BinaryHeap` (beyond the algorithm modelled for C114), `HashMap/HashSet`, `BTreeMap/BTreeSet`, `VecDeque`, `Vec`, slices, integer
  parsing and `fmt` padding behave as documented.

### Conventions of the model

- **Overflow.** The arithmetic operators of Rust on machine integers are `IntTy.add`, `sub` and `mul`:
  on overflow they panic or wrap around, according to the `Target`. In the definition of a constant
  overflow does not compile (`IntTy.const`). Division by 0 always panics.
- **usize** has 64 or 32 bits, according to the `Target`; 16-bit targets are not modelled. The examples
  are about a debug build for a 64-bit machine where they do not say otherwise.
- **Closures.** Except in C94 – C100, the functions given by the user (`go`, `found`, closures of
  iterators) are total functions of their arguments: they return, always the same for the same
  arguments. The negation of elements (`Neg`, C36) may panic. In C94 – C100 the closures `go` and
  `found` may also panic, keep state and answer differently each time. Closures that never return, and
  closures that use the iterator that calls them, are not modelled.
- **StaysIn.** A movement function returns positions of the type it is used with. Rust's types
  guarantee this as far as C79 goes.
- **Fuel.** Loops without a static bound take a number of steps and give `timeout` beyond it. The
  theorems hold for every amount of fuel above an explicit bound, so they include termination. More fuel never
  changes a result that is not `timeout` (`Proofs/Fuel.lean`).
- **Memory and time.** Allocation fails only where the size requested is above `isize::MAX`
  (`VecDeque::with_capacity` in `camefrom_into_path`, a panic), and running time is not modelled except as the number of
  steps.
- **Const evaluation.** `staticOk` (C37, C43, C44, C92, C93) says whether a type passes the assertion
  evaluated while compiling; everything else in the type system (trait bounds, privacy) is by reading.

### What is modelled, by file

| file | modelled | not modelled |
|---|---|---|
| base.rs | `Sqrid` parameters, `sqrid_create!` in both forms, `Debug` | - |
| boundedint.rs | all functions of `BoundedInt` for the 12 builtin types and the 11 bounded types, conversions, `Default`, iterator, `Hash`, `Debug`, `Display` | |
| pos.rs | constants, constructors, all conversions, `Ord`, `Hash`, `Display`, `{:?}` with all options, public fields | - |
| postrait.rs | all functions of `PosT` for `Pos` and tuples of integers, all iterators with both ends and size hints, their `{:?}` with all options | - |
| posdir.rs | all | - |
| dir.rs | all, including parsing, names, `Display`, conversions from and to integers and tuples, `Hash`, `{:?}` with all options | - |
| error.rs | the enumeration and its texts | - |
| grid.rs | all, including unchecked access as `ub`, `Display` with fill, alignment, width and precision, comparison, `Hash`, `{:?}` with all options | - |
| gridbool.rs | all, on 32-bit words; `Display`, comparison of the words, `Hash`, `{:?}` with all options | - |
| setpos.rs, mappos.rs | all, over std collections | - |
| bf.rs, astar.rs, ucs.rs | all iterators and searches, `Sqrid` methods, `{:?}` with all options | - |
| benches | - | all |

### Check of the model against the tests of the crate

The test suite of the crate (/repo/tests) and the examples of its documentation say what the program does on concrete inputs. `Tests/` runs them on
the model: every assertion of `boundedint_tests.rs`, `dir_tests.rs`, `mov_tests.rs`, `pos_tests.rs`,
`grid_tests.rs`, `gridbool_tests.rs` and `bf_tests.rs` about modelled functions is an `example` that the
kernel evaluates; the mazes of `search_tests.rs` are too large for the kernel, and Lean's interpreter runs them
(`#guard`). These are tests of the model, not proofs of properties, and no property rests on them. They
matter most for the searches: A* and uniform-cost search are not optimal in general (C58, C63), so the
path lengths in the mazes depend on the order in which the priority queue gives equal entries. Left out are
the two tests of scale (65536 positions and 4 million positions, covered by C50 and C38), and in the mazes
the searches from the later positions along the path, which were run once, all with the lengths the tests
expect.

## Where the code and the properties disagree

Each point is a theorem (name in parentheses); what holds instead is in the theorems of the same number
ending in `_partial` or `_exact`.

- `BoundedX::default()` and `From<bool>` are not checked against the bounds (C03), which makes an
  out-of-bounds read possible in safe code, as do the public fields of positions (C79).
- `Pos::try_from((i32, i32))` truncates to 16 bits (C06); `extend_from_vecvec` truncates line numbers (C32).
- Every `size_hint` is a constant (C11). A range that ends on the last line but before the last column
  loses positions (C12). `iter_in_x`, `iter_in_y` start at 0 whatever MIN is (C13).
- `manhattan` overflows the coordinate type for signed types (C15); `to_usize` and `width` panic or are
  wrong for types that do not start at 0 (C76), as are the flips (C77).
- Diagonals are displayed as two letters, which the parser does not accept (C25). `Dir::next::<false>` of
  `NW` panics (C26).
- The SIZE of a `Grid` is never checked (C28), so that the searches of a `Sqrid` type read out of bounds
  when used with a larger position type (C93).
- `Gridbool::rotate_*` is wrong on squares of even size (C41), and `==` compares unused bits (C42). The
  constants WIDTH and HEIGHT of integer tuples are one too small (C44).
- `camefrom_into_path` gives up after WIDTH*WIDTH + 1 steps, so on tall grids reachable destinations
  give `Err(Loop)` (C48, C53, C57, C62).
- `bfs_path` does not test the origin (C53); the traversal yields the origin if a step leads from it to
  itself (C49, C50).
- A* and uniform-cost search process stale heap entries, which overwrite the recorded direction: paths
  may be longer than necessary (C58, C63), and A* with diagonals may return `Err(Loop)` for a
  reachable destination (C57).
- In release builds `to_usize` of large types gives different positions the same number (C104), and the
  costs of uniform-cost search wrap around, so that the path may not be the cheapest (C105). On 32-bit
  machines `Pos::<65535, 65535>::dimensions()` panics or is 0 (C106).
- Nothing relates the SIZE of a `Grid` to an integer tuple type: in release builds no SIZE is safe for `(u64, u64)` (C116). Flips of grids
  over signed types panic (C116).

## Axioms of each theorem

As printed by `#print axioms` for the theorems listed in `MANIFEST.json` (namespace `Sqrid`).

- **no axioms** (13): C01_new_unwrap_exact, C06_try_from_i32_refuted, C06_negative_accepted, C18_non_square_panics, C23_to_tuple, C23_of_tuple, C23_round_trip, C78_error_texts, C102_dir_order, C103_positions, C103_size_hints, C106_refuted, C112_position_calls.
- **propext** (39): C03_bounds_refuted, C03_from_bool_refuted, C03_bounds_partial, C15_refuted, C22_flip, C22_rotate, C22_group, C22_quarter_turn, C22_is_diagonal, C24_try_from_char, C24_parse, C24_char_names_parse, C25_display_parse_refuted, C25_display_parse_exact, C25_display_parse_partial, C25_display_injective, C26_iter_complete, C26_total_refuted, C26_total_partial, C44_refuted, C44_refuted_every_tuple, C44_tuple_exact, C48_refuted, C76_refuted, C77_refuted, C79_refuted, C86_bf_fused, C86_astar_fused, C86_ucs_fused, C103_astar, C103_ucs, C103_best_first_iterators, C103_camefrom, C104_refuted, C156_read, C156_round_trip, C156_letters_ambiguous, C168_all, C168_iter.
- **Quot.sound, propext** (68): C02_checked_add_exact, C02_checked_sub_exact, C05_pos_constants, C11_dir_hint_exact, C12_inverted_x, C13_iter_in_x_partial, C13_iter_in_y_partial, C13_iter_in_x_exact, C13_iter_in_y_exact, C13_refuted_iff_nonzero, C13_refuted, C22_rotate_many, C26_iter, C44_pos_inherent, C50_refuted, C53_refuted_origin, C57_refuted_diagonals, C58_refuted_diagonals, C77_flip_exact, C79_raw_fields_exact, C93_std, C94_bf_iter, C94_bfs, C94_astar, C94_ucs, C100_ucs_loop_occurs, C100_astar_loop_occurs, C101_no_ub, C103_grid, C103_gridbool, C103_bf, C103_sqrid, C104_width_height, C104_dimensions, C104_to_usize, C104_manhattan, C104_injective_partial, C112_sets_maps, C115_traversal, C116_no_ub, C116_get_set_exact, C116_line_mut, C120_astar_twice_occurs, C120_ucs_fan_occurs, C121_zero_differs, C121_limit_matters, C122_astar_differs_straight, C122_astar_differs_diagonals, C122_ucs_differs, C123_refuted, C124_loop_occurs, C124_astar_longer, C127_ucs_dearer, C127_astar_longer, C128_sharp, C132_gridbool_even, C135_ucs_stale_occurs, C143_same, C146_astar_rest_fails, C146_astar_rest_fails_diagonals, C146_astar_start_fails, C146_astar_start_fails_diagonals, C147_astar_fails, C147_astar_fails_diagonals, C148_astar_fails, C150_ucs_last_fails, C156_words, C160_nearest_first_differs.
- **Classical.choice, Quot.sound, propext** (486): C01_try_from_exact, C01_new_exact, C01_builtin_bounds, C02_inc_dec_exact, C04_iter_double_ended, C05_pos_new_exact, C05_pos_new_unwrap_exact, C06_try_from_i32_modulo, C06_try_from_i32_partial, C07_to_usize, C07_from_to_usize, C07_to_from_usize, C07_to_usize_injective, C08_next, C08_prev, C08_next_y, C08_prev_y, C09_iter_collect, C09_iter_each_once, C09_iter_call_order, C10_iter_double_ended, C11_iter_hint_exact, C11_size_hint_refuted, C11_size_hint_partial, C11_range_hint_exact, C11_in_x_hint_exact, C11_in_y_hint_exact, C11_others_refuted, C12_iter_range_refuted, C12_iter_range_partial, C12_iter_range_lost, C12_inverted_y, C12_rect_spec, C14_tlbr_of, C14_tlbr_in_grid, C15_manhattan_exact, C15_manhattan_fits, C15_manhattan_partial, C15_metric_partial, C16_inside, C17_flip_h_exact, C17_flip_v_exact, C17_flip_laws, C18_rotate_exact, C18_rotate_laws, C19_is_side, C19_is_corner, C19_is_corner_positions, C20_add_dir_exact, C20_add_dir_inverse, C20_add_dir_injective, C21_none_iff_same, C21_no_diagonal, C21_follow_arrives, C21_shortest, C23_of_tuple_rejects, C26_next, C27_get_safe, C27_write_history, C27_repeat, C28_refuted, C28_get_exact, C28_safe_iff_partial, C29_iter_pos, C29_iter_order, C29_collect, C30_extend, C30_extend_copies, C31_try_from_vecvec, C32_refuted, C32_extend_from_vecvec_partial, C32_exact, C33_flip_h, C33_flip_v, C33_flip_twice, C34_rotate, C34_rotate_laws, C34_rotate_flips, C35_line, C35_line_mut, C36_neg, C36_neg_total, C36_neg_panics, C37_history, C37_from_repeat, C37_constants, C38_iter, C38_iter_t_f, C39_collect_positions, C39_collect_bools, C40_flip, C40_flip_twice, C41_rotate_exact, C41_refuted_every_even_size, C41_refuted, C41_odd_size_partial, C42_refuted, C42_equality_partial, C42_exact, C43_macros, C43_static_exact, C44_tuple_model, C44_u8_gridbool_panics, C44_pos_partial, C45_sets, C45_interchangeable, C46_maps, C46_maps_default, C46_interchangeable, C47_real_path, C48_exact, C48_wide_partial, C49_layers_exact, C49_layers_partial, C49_refuted, C50_visits_exact, C50_visits_partial, C51_valid_path, C51_walks, C52_shortest, C53_exact, C53_wide_partial, C53_refuted_tall, C54_iter_agree, C54_search_agree, C55_valid_path, C56_terminates, C57_unreachable_partial, C57_wide_straight_partial, C57_refuted_tall, C57_no_detour_exact, C57_near_straight_partial, C58_no_detour_partial, C58_refuted_straight, C59_agree, C60_true_distance, C61_valid_path, C62_near_partial, C62_unit_exact, C62_never_invalid, C62_unreachable_partial, C62_wide_partial, C62_refuted_tall, C63_enter_cost_partial, C63_refuted_straight, C63_refuted_diagonals, C64_cost_order, C65_agree, C66_no_panic, C66_small_steps, C67_agree, C68_grid_text, C68_column_labels, C68_pad, C69_gridbool_text, C69_text_faithful, C69_char_at, C70_pos_text, C71_named_positions, C71_sizes, C72_tryfrom_pos, C72_pos_round_trips, C72_accessors, C72_new_static, C73_order, C73_vertical_sorted, C73_reading_order, C74_grid_eq, C74_grid_cmp, C74_as_array, C74_iter_mut, C75_layout, C75_as_inner_mut, C75_gridbool_cmp, C76_width_height_exact, C76_to_usize_exact, C76_to_usize_injective, C76_tryfrom_usize_exact, C76_from_to_usize, C76_grids_partial, C77_flip_correct_iff, C77_flip_partial, C77_rotate_exact, C77_rotate_total_iff, C79_made_partial, C79_made_access_partial, C80_order, C81_first_goal, C82_distance, C82_layers, C82_paths, C83_astar_same, C83_ucs_same, C84_bf_iter, C84_bfs, C84_astar, C84_ucs, C85_bfs_reverse, C85_ucs_unit_reverse, C87_bfs_monotone, C87_ucs_unit_monotone, C88_direct_exact, C88_direct_unique, C88_open_exact, C89_astar_within, C89_ucs_within, C90_bfs_prefix, C91_bfs_simple, C91_astar_simple, C91_ucs_simple, C92_own_positions, C93_refuted_bfs, C93_refuted_astar, C93_refuted_ucs, C93_bfs_partial, C93_bf_iter, C93_astar_partial, C93_ucs_partial, C95_bf_iter_calls, C95_astar_calls, C95_ucs_calls, C96_any_closure, C97_any_closures, C98_any_closure, C99_any_closure, C100_bfs_granted, C100_astar_granted, C100_ucs_granted, C101_flip_signed, C101_get_set_exact, C104_tryfrom_usize, C104_rotate, C105_refuted, C105_any_costs_partial, C105_no_overflow_partial, C106_pos, C106_dimensions_exact, C106_dimensions_partial, C107_sets, C107_maps, C107_layers, C107_visits, C108_exact, C108_near_partial, C108_refuted_far, C108_never, C109_straight_exact, C109_diagonals_exact, C109_near_partial, C109_refuted_far, C109_never, C110_exact, C110_near_partial, C110_refuted_far, C110_never, C111_real_path, C111_exact, C112_values, C112_grids, C112_searches, C113_bounded_text, C113_debug_text, C114_binary_heap, C114_model_heap, C114_iterators, C114_astar, C114_ucs, C115_sets, C115_maps, C115_bfs, C115_astar, C115_ucs, C115_camefrom, C116_safe_iff_checks, C116_safe_iff_release, C116_line_checks, C116_line_release, C116_flip_signed, C117_ucs_steps, C117_ucs_bound, C117_astar_steps, C117_astar_bound, C117_ucs_tight, C118_bf_iter, C118_ucs, C118_astar, C118_bfs, C118_ucs_iter, C118_astar_iter, C119_pos_text, C119_gridbool_text, C119_grid_text, C119_readable, C119_gridbool_read, C119_grid_read, C119_iterators, C119_iterators_text, C119_search_iterators_text, C119_search_iterators, C119_int_text, C120_ucs_enter, C120_astar_twice, C120_astar_calls, C120_ucs_once, C120_ucs_calls, C121_path, C121_iter, C121_uniform, C122_bfs, C122_bf_iter, C122_astar_unreachable, C122_astar_direct, C122_ucs_unit, C122_ucs_unreachable, C122_ucs_cost, C122_walls, C123_grid, C123_gridbool_exact, C123_same_partial, C124_bfs, C124_ucs_unit, C124_ucs, C124_ucs_enter, C124_astar, C125_positions, C125_bounded, C125_nth, C125_nth_back, C126_gridbool, C126_normal_form, C126_grid_to_gridbool, C126_gridbool_to_grid, C127_ucs_enter, C128_astar_within, C128_straight, C128_diagonals, C128_iter_straight, C128_iter_diagonals, C129_astar, C129_ucs, C130_range, C130_lines, C130_lines_any, C130_dirs, C130_gridbool, C130_grid, C130_bf, C130_astar, C130_ucs, C131_ucs, C131_ucs_start, C131_astar, C131_ucs_far, C132_grid_flips, C132_grid_square, C132_grid_eight, C132_grid_reverse, C132_grid_half_turn, C132_gridbool, C132_gridbool_odd, C133_bfs_layers, C133_astar_calls, C133_astar_diagonals, C133_ucs_calls, C133_ucs_length, C133_ucs_found, C134_no_options, C134_int_text, C134_hex_text, C134_gridbool_text, C134_gridbool_read, C134_readable, C134_unclear, C135_astar_straight, C135_astar, C135_ucs, C135_bf, C136_ucs, C136_astar, C136_astar_length, C136_astar_sum, C136_astar_rises, C137_astar_far, C137_ucs, C137_astar, C137_astar_walls, C138_ucs, C138_astar, C139_ucs, C139_astar, C139_astar_stairs, C140_ucs_back, C140_ucs_exact, C140_ucs_found, C140_ucs, C140_astar, C141_ucs, C141_astar, C141_open, C142_first, C142_step, C142_exact, C143_bfs, C143_open, C144_bfs, C144_open, C144_hill, C145_ucs, C145_open, C146_bfs_rest, C146_bfs_start, C146_ucs_rest, C146_ucs_rest_found, C146_ucs_start, C146_ucs_start_found, C146_ucs_unit_rest, C146_ucs_unit_start, C147_bfs, C147_ucs, C147_ucs_found, C147_ucs_unit, C148_bfs, C148_ucs, C148_ucs_costs, C148_astar_never_arrives, C148_ucs_never_arrives, C148_ucs_never_arrives_diagonals, C149_areas, C149_walls, C150_bfs, C150_bfs_dest, C150_ucs, C150_ucs_first, C150_astar_first, C151_cheapest_goal, C152_field, C153_around, C153_number, C153_number_any, C153_tally, C154_smallest, C154_order, C154_union, C154_box, C154_again, C155_automaton, C156_read_error, C156_letters, C156_letters_lead, C157_read, C157_lines, C157_round_trip, C157_fill_panics, C158_parity, C158_searches, C158_exact, C158_open, C158_open_diagonals, C159_bfs, C159_astar, C159_ucs, C159_any_error_differs, C159_on_the_path, C159_on_the_path_bfs, C159_on_the_path_astar, C160_tour, C160_bfs, C161_count, C161_unique, C161_open, C162_seats, C162_without_wall, C163_bfs, C163_astar, C164_sums, C165_ray, C165_back, C165_words, C166_patrol, C166_obstruct, C167_distance, C167_layers, C167_bfs, C167_across, C168_turn, C168_around.
