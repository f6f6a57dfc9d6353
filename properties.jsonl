{"id": "C01", "title": "Bounded integer construction is exact", "statement": "For every bounded integer type and every value of any builtin integer type, `new`/`try_from` succeeds exactly when the value lies in MIN..=MAX and then holds that very value; otherwise it returns Err(OutOfBounds). `new_unwrap` returns the same value or panics under exactly the same condition.", "quantifier": "all base integer types, all bounds MIN<=MAX, all source integer types, all values", "why_tests_cant": "2^128 values times all bound pairs times 12x12 type pairs", "anchors": ["src/sqrid/boundedint.rs:BoundedU8::new", "src/sqrid/boundedint.rs:new_unwrap", "src/sqrid/boundedint.rs:boundedint_impl_tryfrom"]}
{"id": "C02", "title": "Bounded integer arithmetic is exact and closed", "statement": "checked_add/checked_sub/inc/dec of in-bounds values return Some(mathematical result) exactly when that result is inside MIN..=MAX, and None otherwise; they never panic, wrap, or return an out-of-bounds value.", "quantifier": "all BoundedInt types, all pairs of in-bounds values", "why_tests_cant": "unbounded set of type parameters and operand pairs", "anchors": ["src/sqrid/boundedint.rs:checked_add", "src/sqrid/boundedint.rs:checked_sub", "src/sqrid/boundedint.rs:BoundedInt::inc", "src/sqrid/boundedint.rs:BoundedInt::dec"]}
{"id": "C03", "title": "No bounded integer value obtained through the conversion/default API is out of bounds", "statement": "Every bounded integer obtained through Default::default or From<bool> lies in MIN..=MAX.", "quantifier": "all base types and bounds, both booleans", "why_tests_cant": "bounds are type parameters; tests instantiate a handful of them", "anchors": ["src/sqrid/boundedint.rs:From<bool>", "src/sqrid/boundedint.rs:Default derive", "src/sqrid/postrait.rs:iter_in_x"]}
{"id": "C04", "title": "BoundedInt::iter enumerates the type from both ends", "statement": "For every schedule of next/next_back calls on T::iter(), the values taken from the front are MIN, MIN+1, ... in order, the values taken from the back are MAX, MAX-1, ... in order, no value is produced twice, the first MAX-MIN+1 calls all return Some and every later call returns None.", "quantifier": "all BoundedInt types, all finite interleavings of next and next_back", "why_tests_cant": "exponentially many interleavings, unbounded type ranges", "anchors": ["src/sqrid/boundedint.rs:BoundedIntIterator::next", "src/sqrid/boundedint.rs:BoundedIntIterator::next_back"]}
{"id": "C05", "title": "Pos::new / try_from((u16,u16)) accept exactly the positions of the grid", "statement": "Pos::<XMAX,YMAX>::new(x,y) is Ok iff x<=XMAX and y<=YMAX, the result's tuple() is (x,y), and the only error is OutOfBounds. new_unwrap panics in exactly the rejected cases.", "quantifier": "all XMAX, YMAX, x, y in u16", "why_tests_cant": "2^64 combinations", "anchors": ["src/sqrid/pos.rs:Pos::new", "src/sqrid/pos.rs:Pos::new_unwrap", "src/sqrid/pos.rs:Pos::tuple"]}
{"id": "C06", "title": "Pos::try_from((i32,i32)) rejects coordinates outside the grid", "statement": "Pos::<XMAX,YMAX>::try_from((x,y)) for i32 x,y is Ok iff 0<=x<=XMAX and 0<=y<=YMAX, and then tuple() is (x,y).", "quantifier": "all XMAX, YMAX in u16, all x, y in i32", "why_tests_cant": "2^96 combinations", "anchors": ["src/sqrid/pos.rs:TryFrom<&(i32, i32)>"]}
{"id": "C07", "title": "Index conversion is a bijection", "statement": "to_usize maps the positions of a grid one-to-one onto 0..WIDTH*HEIGHT in row-major order (index = y*WIDTH+x); tryfrom_usize is its inverse, returning Err(OutOfBounds) for every index >= WIDTH*HEIGHT. No overflow or panic occurs.", "quantifier": "all grids (every PosT type, such as Pos<XMAX,YMAX>, whose coordinates start at 0 and whose positions can be counted in a usize), all positions, all usize indices", "why_tests_cant": "quadratic in dimensions, dimension pairs unbounded for tests", "anchors": ["src/sqrid/postrait.rs:to_usize", "src/sqrid/postrait.rs:tryfrom_usize", "src/sqrid/postrait.rs:width"]}
{"id": "C08", "title": "next/prev walk the grid in reading order, next_y/prev_y in column order", "statement": "pos.next() is the position whose index is one more (None only at the last position), prev its inverse; next_y/prev_y do the same for column-major order; all four stay inside the grid.", "quantifier": "all position types, all positions", "why_tests_cant": "all dimension pairs and positions", "anchors": ["src/sqrid/postrait.rs:PosT::next", "src/sqrid/postrait.rs:PosT::prev", "src/sqrid/postrait.rs:PosT::next_y", "src/sqrid/postrait.rs:PosT::prev_y"]}
{"id": "C09", "title": "Pos::iter yields each position exactly once in reading order", "statement": "Collecting P::iter() / iter_horizontal() gives exactly the positions with indexes 0,1,...,WIDTH*HEIGHT-1 in that order; iter_vertical() gives every position exactly once in column-major order; afterwards next() keeps returning None.", "quantifier": "all grids (every PosT type, such as Pos<XMAX,YMAX>, whose coordinates start at 0 and whose positions can be counted in a usize)", "why_tests_cant": "dimensions are type parameters", "anchors": ["src/sqrid/postrait.rs:PosTIter::next", "src/sqrid/postrait.rs:PosT::iter", "src/sqrid/postrait.rs:PosT::iter_vertical"]}
{"id": "C10", "title": "Double-ended position iteration never repeats or skips", "statement": "For every interleaving of next and next_back on iter()/iter_vertical(), the k-th front value is the k-th position of the forward order and the k-th back value is the k-th from the end, and the iterator stops exactly when every position has been produced once.", "quantifier": "all dimensions, both orientations, all interleavings", "why_tests_cant": "exponentially many interleavings", "anchors": ["src/sqrid/postrait.rs:PosTIter::next_back", "src/sqrid/postrait.rs:PosTIter::next"]}
{"id": "C11", "title": "size_hint of position iterators brackets the number of remaining items", "statement": "At every point of iteration, size_hint() of the iterators over positions (iter, iter_range, iter_in_x, iter_in_y) and directions gives a lower bound <= remaining items <= upper bound, as the Iterator contract requires.", "quantifier": "all grids (every PosT type, such as Pos<XMAX,YMAX>, whose coordinates start at 0 and whose positions can be counted in a usize), all points of the iteration", "why_tests_cant": "every intermediate iterator state", "anchors": ["src/sqrid/postrait.rs:PosTIter::size_hint", "src/sqrid/postrait.rs:PosTIterRange::size_hint", "src/sqrid/dir.rs:DirIter::size_hint"]}
{"id": "C12", "title": "iter_range yields exactly the rectangle", "statement": "For corners tl, br with tl above/left of br, collecting iter_range(tl,br) gives every position of the rectangle exactly once in reading order, and nothing else.", "quantifier": "all dimensions, all corner pairs", "why_tests_cant": "quartic number of corner pairs per dimension pair", "anchors": ["src/sqrid/postrait.rs:PosTIterRange::next", "src/sqrid/postrait.rs:PosT::iter_range"]}
{"id": "C13", "title": "iter_in_x / iter_in_y yield exactly a column / a line", "statement": "iter_in_x(x) yields (x,y) for every valid y exactly once in increasing order, iter_in_y(y) yields (x,y) for every valid x in increasing order.", "quantifier": "all position types, all x / y", "why_tests_cant": "dimensions are type parameters", "anchors": ["src/sqrid/postrait.rs:PosTIterInX::next", "src/sqrid/postrait.rs:PosTIterInY::next"]}
{"id": "C14", "title": "tlbr_of computes the tight bounding box", "statement": "tlbr_of of an empty iterator is Err(Empty); otherwise it returns corners (tl,br) such that every item lies between them and each of the four sides is touched by some item.", "quantifier": "all position types, all finite sequences of positions", "why_tests_cant": "sequences are unbounded", "anchors": ["src/sqrid/postrait.rs:PosT::tlbr_of"]}
{"id": "C15", "title": "manhattan is the L1 metric", "statement": "manhattan(a,b)=|ax-bx|+|ay-by|; it never panics, is zero iff a=b, symmetric and satisfies the triangle inequality.", "quantifier": "all position types and pairs/triples of positions", "why_tests_cant": "all dimension pairs and position triples", "anchors": ["src/sqrid/postrait.rs:PosT::manhattan"]}
{"id": "C16", "title": "inside tests membership of the rectangle spanned by two corners in any order", "statement": "p.inside(a,b) holds iff p's coordinates are between those of a and b (inclusive), whichever of a,b is greater in each axis; it is symmetric in a and b.", "quantifier": "all position types, all triples", "why_tests_cant": "all triples", "anchors": ["src/sqrid/postrait.rs:PosT::inside"]}
{"id": "C17", "title": "flip_h/flip_v mirror positions", "statement": "flip_h maps (x,y) to (XMAX-x,y) and flip_v to (x,YMAX-y); they never panic, stay in the grid, are involutions, commute, and preserve is_corner, is_side and manhattan distances.", "quantifier": "all grids (every PosT type, such as Pos<XMAX,YMAX>, whose coordinates start at 0 and whose positions can be counted in a usize), all positions", "why_tests_cant": "all dimensions and positions", "anchors": ["src/sqrid/postrait.rs:PosT::flip_h", "src/sqrid/postrait.rs:PosT::flip_v"]}
{"id": "C18", "title": "rotate_cw/rotate_cc on square grids", "statement": "On a square grid rotate_cw maps (x,y) to (MAX-y,x); it never panics, is inverted by rotate_cc, has order 4, and preserves is_corner, is_side and manhattan distances.", "quantifier": "all square dimensions, all positions", "why_tests_cant": "all dimensions and positions", "anchors": ["src/sqrid/postrait.rs:PosT::rotate_cw", "src/sqrid/postrait.rs:PosT::rotate_cc"]}
{"id": "C19", "title": "is_corner and is_side classify the border", "statement": "is_side(p) iff some grid neighbour position (in the unbounded plane) in a cardinal direction falls outside the grid; is_corner(p) iff both a horizontal and a vertical neighbour do.", "quantifier": "all position types, all positions", "why_tests_cant": "all dimensions", "anchors": ["src/sqrid/postrait.rs:PosT::is_corner", "src/sqrid/postrait.rs:PosT::is_side"]}
{"id": "C20", "title": "Pos + Dir moves by exactly one unit or reports OutOfBounds", "statement": "p + d is Ok(q) iff p's coordinates plus the direction's unit vector lie in the grid, q is that position, and otherwise the result is Err(OutOfBounds); there is no wrap-around and no panic. Whenever p + d = Ok(q), q + (-d) = Ok(p).", "quantifier": "all position types, all positions, all 8 directions", "why_tests_cant": "all dimensions", "anchors": ["src/sqrid/posdir.rs:Add<Dir> for Pos", "src/sqrid/dir.rs:Add<Dir> for (T, U)"]}
{"id": "C21", "title": "direction_to leads to the destination", "statement": "direction_to(src,dst) is None iff src==dst. Otherwise src plus the direction is in the grid and strictly closer: repeatedly stepping reaches dst in exactly manhattan(src,dst) steps without diagonals, and exactly max(|dx|,|dy|) steps with diagonals.", "quantifier": "all position types, all pairs, both diagonal modes", "why_tests_cant": "all pairs in all dimensions; unbounded number of steps", "anchors": ["src/sqrid/posdir.rs:direction_to"]}
{"id": "C22", "title": "Direction algebra", "statement": "Directions under + (rotate) form the cyclic group of order 8 with identity N; -d (flip) is an involution, equals d + S, and negates the unit vector; N+d=d; rotation by d is reversible; += agrees with +.", "quantifier": "all directions, all sequences of rotations", "why_tests_cant": "sequences of rotations are unbounded", "anchors": ["src/sqrid/dir.rs:Dir::flip", "src/sqrid/dir.rs:Dir::rotate", "src/sqrid/dir.rs:AddAssign"]}
{"id": "C23", "title": "Direction <-> tuple conversion is a partial bijection", "statement": "Dir::try_from((dx,dy)) is Ok(d) iff (dx,dy) is the unit vector of d, i.e. iff both lie in -1..=1 and are not both zero; otherwise Err(InvalidDirection). From<Dir> is its inverse.", "quantifier": "all integer pairs", "why_tests_cant": "2^256 pairs", "anchors": ["src/sqrid/dir.rs:tuple_conv_i_impl"]}
{"id": "C24", "title": "Direction parsing accepts exactly the documented symbols", "statement": "Dir::try_from(char)/from_str is Ok(d) exactly for a one-char string that is d's UTF-8 arrow, its ASCII symbol, or (cardinals only) its letter in upper or lower case; everything else gives Err(DirParseError). Printing with name_utf8/name_ascii and parsing back is the identity.", "quantifier": "all strings", "why_tests_cant": "unbounded strings", "anchors": ["src/sqrid/dir.rs:TryFrom<char> for Dir", "src/sqrid/dir.rs:FromStr for Dir"]}
{"id": "C25", "title": "Display of a Dir parses back", "statement": "For every direction d, d.to_string().parse::<Dir>() == Ok(d).", "quantifier": "all 8 directions", "why_tests_cant": "the existing tests check only the 4 cardinals", "anchors": ["src/sqrid/dir.rs:Display for Dir", "src/sqrid/dir.rs:FromStr for Dir"]}
{"id": "C26", "title": "Dir::iter / Dir::next enumerate directions clockwise", "statement": "Dir::iter::<D>() yields the 4 cardinals (D=false) or all 8 directions (D=true) clockwise starting at N, once each, then None forever; Dir::next never panics.", "quantifier": "both modes, any number of calls", "why_tests_cant": "calls after exhaustion, all start directions", "anchors": ["src/sqrid/dir.rs:DirIter::next", "src/sqrid/dir.rs:Dir::next"]}
{"id": "C27", "title": "Grid access is memory-safe and behaves as a map", "statement": "On a grid whose SIZE is WIDTH*HEIGHT, get/index/get_mut/index_mut never reach outside the array; after any sequence of writes, reading p returns the last value written at p, or its initial value.", "quantifier": "all grids (every PosT type, such as Pos<XMAX,YMAX>, whose coordinates start at 0 and whose positions can be counted in a usize), all element types, all write sequences, all positions", "why_tests_cant": "histories unbounded; out-of-bounds reads through get_unchecked are silent", "anchors": ["src/sqrid/grid.rs:Grid::get", "src/sqrid/grid.rs:Grid::get_mut", "src/sqrid/mappos.rs:MapPos for Grid"]}
{"id": "C28", "title": "The declared SIZE of a Grid is checked", "statement": "A Grid can only be constructed when SIZE == WIDTH*HEIGHT (docs: 'This value is checked at compile time'), so that get is memory-safe for every grid value that exists.", "quantifier": "all SIZE parameters", "why_tests_cant": "a missing const evaluation is not visible to runtime tests", "anchors": ["src/sqrid/grid.rs:Grid::_ASSERTS", "src/sqrid/grid.rs:Grid::repeat", "src/sqrid/grid.rs:Default for Grid"]}
{"id": "C29", "title": "Grid iteration, iter_pos and collect agree", "statement": "iter() yields the cells in reading order; iter_pos() yields (p, grid[p]) for every p in reading order; collecting n items succeeds iff n = SIZE (panics otherwise) and collecting grid.iter() gives back the same grid.", "quantifier": "all grids (every PosT type, such as Pos<XMAX,YMAX>, whose coordinates start at 0 and whose positions can be counted in a usize), all contents, all iterator lengths", "why_tests_cant": "all lengths and contents", "anchors": ["src/sqrid/grid.rs:FromIterator for Grid", "src/sqrid/grid.rs:Grid::iter_pos"]}
{"id": "C30", "title": "Grid::extend is last-write-wins", "statement": "After grid.extend(pairs), grid[p] is the value of the last pair with position p, or the old value if there is none; re-extending with iter_pos of a grid copies it.", "quantifier": "all grids (every PosT type, such as Pos<XMAX,YMAX>, whose coordinates start at 0 and whose positions can be counted in a usize), all pair sequences", "why_tests_cant": "sequence unbounded", "anchors": ["src/sqrid/grid.rs:Extend for Grid"]}
{"id": "C31", "title": "Grid::try_from(Vec<Vec<T>>) places rows and pads with default", "statement": "The conversion fails with OutOfBounds iff there are more rows than HEIGHT or some row is longer than WIDTH; otherwise grid[(x,y)] = v[y][x] where present and T::default() elsewhere.", "quantifier": "all grids (every PosT type, such as Pos<XMAX,YMAX>, whose coordinates start at 0 and whose positions can be counted in a usize), all nested vectors", "why_tests_cant": "nested vectors unbounded", "anchors": ["src/sqrid/grid.rs:TryFrom<Vec<Vec<T>>>"]}
{"id": "C32", "title": "Grid::extend_from_vecvec writes rows and reports overflow", "statement": "If all rows fit it returns Ok and grid[(x,y)] = v[y][x] where present, other cells unchanged; if some cell does not fit it returns Err(OutOfBounds) (with earlier cells already written, none outside).", "quantifier": "all grids (every PosT type, such as Pos<XMAX,YMAX>, whose coordinates start at 0 and whose positions can be counted in a usize), all nested vectors", "why_tests_cant": "nested vectors unbounded, u16 truncation needs > 65535 entries", "anchors": ["src/sqrid/grid.rs:Grid::extend_from_vecvec"]}
{"id": "C33", "title": "Grid::flip_h/flip_v relocate every cell", "statement": "After flip_h, the value at p is the former value at p.flip_h(), for every p; same for flip_v; flipping twice restores the grid; no panic.", "quantifier": "all grids (every PosT type, such as Pos<XMAX,YMAX>, whose coordinates start at 0 and whose positions can be counted in a usize), all contents", "why_tests_cant": "all dimensions (odd/even) and contents", "anchors": ["src/sqrid/grid.rs:Grid::flip_h", "src/sqrid/grid.rs:Grid::flip_v"]}
{"id": "C34", "title": "Grid::rotate_cw/rotate_cc relocate every cell", "statement": "On a square grid, after rotate_cw the value at p.rotate_cw() is the former value at p, for every p; rotate_cc is the inverse; four rotations restore the grid. Two turns are a flip both ways, and a flip before a turn is the same flip after the opposite turn.", "quantifier": "all square dimensions, all contents", "why_tests_cant": "all sizes; tests cover 3x3 and 5x5", "anchors": ["src/sqrid/grid.rs:Grid::rotate_cw", "src/sqrid/grid.rs:Grid::rotate_cc"]}
{"id": "C35", "title": "Grid::line is the slice of a row", "statement": "grid.line(y) has WIDTH entries, its x-th entry is grid[(x,y)], and writing through line_mut changes exactly that cell; never panics for a valid y when SIZE = WIDTH*HEIGHT.", "quantifier": "all grids (every PosT type, such as Pos<XMAX,YMAX>, whose coordinates start at 0 and whose positions can be counted in a usize), contents, y", "why_tests_cant": "all dimensions", "anchors": ["src/sqrid/grid.rs:Grid::line", "src/sqrid/grid.rs:Grid::line_mut"]}
{"id": "C36", "title": "Negating a Grid negates every cell", "statement": "(-grid)[p] == -(grid[p]) for all p, and -grid panics exactly when the negation of some cell does.", "quantifier": "all grids (every PosT type, such as Pos<XMAX,YMAX>, whose coordinates start at 0 and whose positions can be counted in a usize), all contents", "why_tests_cant": "all dimensions", "anchors": ["src/sqrid/grid.rs:Neg for Grid"]}
{"id": "C37", "title": "Gridbool behaves as a map from positions to bool under any history", "statement": "After any sequence of set/set_t/set_f/set_iter_t/set_iter_f starting from repeat(b), get(p) is the last value set at p, or b; operations at one position never disturb another; no panic.", "quantifier": "all grids (every PosT type, such as Pos<XMAX,YMAX>, whose coordinates start at 0 and whose positions can be counted in a usize) with an accepted WORDS, all operation histories, all positions", "why_tests_cant": "histories unbounded; word/bit boundary interactions", "anchors": ["src/sqrid/gridbool.rs:Gridbool::set", "src/sqrid/gridbool.rs:Gridbool::get", "src/sqrid/gridbool.rs:byte_bit"]}
{"id": "C38", "title": "Gridbool iteration agrees with get", "statement": "iter() lists get(p) in reading order; iter_pos pairs them; iter_t yields exactly the true positions and iter_f exactly the false ones, each once in reading order.", "quantifier": "all grids (every PosT type, such as Pos<XMAX,YMAX>, whose coordinates start at 0 and whose positions can be counted in a usize), all contents", "why_tests_cant": "all contents", "anchors": ["src/sqrid/gridbool.rs:Gridbool::iter_t", "src/sqrid/gridbool.rs:Gridbool::iter_f", "src/sqrid/gridbool.rs:Gridbool::iter"]}
{"id": "C39", "title": "Collecting into a Gridbool", "statement": "Collecting positions gives true exactly at the collected positions; collecting booleans succeeds iff there are exactly WIDTH*HEIGHT of them (panics otherwise), and iter() then returns the same sequence.", "quantifier": "all grids (every PosT type, such as Pos<XMAX,YMAX>, whose coordinates start at 0 and whose positions can be counted in a usize), all sequences", "why_tests_cant": "unbounded sequences", "anchors": ["src/sqrid/gridbool.rs:FromIterator<P>", "src/sqrid/gridbool.rs:FromIterator<bool>"]}
{"id": "C40", "title": "Gridbool::flip_h/flip_v relocate every bit", "statement": "After flip_h, get(p) is the former get(p.flip_h()) for every p; same for flip_v; twice restores all values.", "quantifier": "all grids (every PosT type, such as Pos<XMAX,YMAX>, whose coordinates start at 0 and whose positions can be counted in a usize), all contents", "why_tests_cant": "all dimensions", "anchors": ["src/sqrid/gridbool.rs:Gridbool::flip_h", "src/sqrid/gridbool.rs:Gridbool::flip_v"]}
{"id": "C41", "title": "Gridbool::rotate_cw/rotate_cc relocate every bit", "statement": "On every square gridbool, after rotate_cw get(p.rotate_cw()) is the former get(p), and rotate_cc is the inverse.", "quantifier": "all square dimensions, all contents", "why_tests_cant": "tests cover only 5x5", "anchors": ["src/sqrid/gridbool.rs:Gridbool::rotate_cw", "src/sqrid/gridbool.rs:Gridbool::rotate_cc"]}
{"id": "C42", "title": "Gridbool equality is extensional", "statement": "Two gridbools of the same type are == iff get agrees at every position.", "quantifier": "all grids (every PosT type, such as Pos<XMAX,YMAX>, whose coordinates start at 0 and whose positions can be counted in a usize), all pairs of gridbools built through the API", "why_tests_cant": "padding bits matter only for sizes not divisible by 32", "anchors": ["src/sqrid/gridbool.rs:PartialEq derive", "src/sqrid/gridbool.rs:Gridbool::repeat"]}
{"id": "C43", "title": "The WORDS/SIZE computed by the type macros always fit", "statement": "For every grid, the WORDS computed by sqrid_create! and gridbool_create! pass Gridbool's static check, and every position's word index is < WORDS; the SIZE computed equals WIDTH*HEIGHT.", "quantifier": "all XMAX, YMAX in u16 whose positions can be counted in a usize (all of them on 64-bit machines)", "why_tests_cant": "2^32 type instantiations", "anchors": ["src/sqrid/base.rs:sqrid_create", "src/sqrid/gridbool.rs:gridbool_create", "src/sqrid/grid.rs:grid_create"]}
{"id": "C44", "title": "Every PosT type has consistent WIDTH/HEIGHT constants", "statement": "For every type implementing PosT, the const WIDTH/HEIGHT used in the static size checks equal width()/height(), so that an accepted Gridbool/Grid holds every position.", "quantifier": "all PosT implementations of the crate", "why_tests_cant": "the integer-tuple implementations are never used with Grid/Gridbool in tests", "anchors": ["src/sqrid/postrait.rs:postrait_integer_impl", "src/sqrid/pos.rs:PosT for Pos"]}
{"id": "C45", "title": "SetPos implementations are interchangeable", "statement": "For every sequence of insert/remove/set/contains operations, Gridbool, HashSet and BTreeSet give the same answers, those of a mathematical set.", "quantifier": "all grids (every PosT type, such as Pos<XMAX,YMAX>, whose coordinates start at 0 and whose positions can be counted in a usize), all operation sequences", "why_tests_cant": "histories unbounded", "anchors": ["src/sqrid/setpos.rs:SetPos"]}
{"id": "C46", "title": "MapPos implementations are interchangeable", "statement": "For every sequence of new/set/get operations, Grid, (HashMap,default) and (BTreeMap,default) return the same values: the last value set, or the default.", "quantifier": "all grids (every PosT type, such as Pos<XMAX,YMAX>, whose coordinates start at 0 and whose positions can be counted in a usize), all operation sequences", "why_tests_cant": "histories unbounded", "anchors": ["src/sqrid/mappos.rs:MapPos"]}
{"id": "C47", "title": "camefrom_into_path only returns real paths", "statement": "If camefrom_into_path(map,orig,dest) is Ok(path), then walking path from orig (pos + dir at each step) stays in the grid and ends at dest, and every step is the reverse of the direction the map holds at the position it arrives to.", "quantifier": "all grids (every PosT type, such as Pos<XMAX,YMAX>, whose coordinates start at 0 and on which the arithmetic of a search fits a usize (the square of the number of columns, the number of positions plus twice the longest distance; every Pos on 64-bit machines)), all maps, all orig/dest", "why_tests_cant": "maps are unbounded", "anchors": ["src/sqrid/mappos.rs:camefrom_into_path"]}
{"id": "C48", "title": "camefrom_into_path terminates with the documented error", "statement": "It always terminates. DestinationUnreachable iff map[dest] is None; InvalidMovement iff following the map leaves the grid or hits a position without direction; Loop iff following the map never reaches orig; Ok otherwise.", "quantifier": "all maps, all orig/dest, all grids (every PosT type, such as Pos<XMAX,YMAX>, whose coordinates start at 0 and on which the arithmetic of a search fits a usize (the square of the number of columns, the number of positions plus twice the longest distance; every Pos on 64-bit machines))", "why_tests_cant": "termination and every map shape", "anchors": ["src/sqrid/mappos.rs:camefrom_into_path"]}
{"id": "C49", "title": "bf_iter yields the breadth-first layers", "statement": "The k-th item (k=0,1,...) of bf_iter(go,orig) is a list without repetition of exactly the positions whose shortest distance from orig under go is k+1; each comes with a direction d such that stepping in -d from some position at distance k leads to it.", "quantifier": "all grids (every PosT type, such as Pos<XMAX,YMAX>, whose coordinates start at 0 and whose positions can be counted in a usize), all go functions (arbitrary graphs), all origins, both diagonal modes", "why_tests_cant": "all graphs", "anchors": ["src/sqrid/bf.rs:BfIterator::next", "src/sqrid/bf.rs:BfIterator::new"]}
{"id": "C50", "title": "bf_iter terminates and visits each reachable position once", "statement": "Flattening bf_iter yields every position reachable from orig in at least one step, other than orig itself, exactly once and nothing else, in non-decreasing distance, after finitely many calls.", "quantifier": "all grids (every PosT type, such as Pos<XMAX,YMAX>, whose coordinates start at 0 and whose positions can be counted in a usize), all go functions, all origins", "why_tests_cant": "all graphs; termination", "anchors": ["src/sqrid/bf.rs:BfIterator::next"]}
{"id": "C51", "title": "bfs_path returns a valid path", "statement": "If bfs_path(go,orig,found) is Ok((dest,path)) and go only steps between neighbours, then found(dest), and following path from orig with go at each step leads to dest.", "quantifier": "all grids (every PosT type, such as Pos<XMAX,YMAX>, whose coordinates start at 0 and on which the arithmetic of a search fits a usize (the square of the number of columns, the number of positions plus twice the longest distance; every Pos on 64-bit machines)), all go functions consistent with Pos+Dir, all found predicates", "why_tests_cant": "all graphs and predicates", "anchors": ["src/sqrid/bf.rs:search_path"]}
{"id": "C52", "title": "bfs_path returns a shortest path to a nearest goal", "statement": "The returned path's length is the distance to dest, and no goal position (other than orig) is closer.", "quantifier": "all grids (every PosT type, such as Pos<XMAX,YMAX>, whose coordinates start at 0 and on which the arithmetic of a search fits a usize (the square of the number of columns, the number of positions plus twice the longest distance; every Pos on 64-bit machines)), all go functions consistent with Pos+Dir, all found predicates", "why_tests_cant": "all graphs", "anchors": ["src/sqrid/bf.rs:search_mapmov"]}
{"id": "C53", "title": "bfs_path fails only if no goal is reachable", "statement": "bfs_path returns Ok whenever some position satisfying found is reachable from orig (including orig itself), and Err(DestinationUnreachable) otherwise.", "quantifier": "all grids (every PosT type, such as Pos<XMAX,YMAX>, whose coordinates start at 0 and on which the arithmetic of a search fits a usize (the square of the number of columns, the number of positions plus twice the longest distance; every Pos on 64-bit machines)), all go functions consistent with Pos+Dir, all predicates", "why_tests_cant": "all graphs and dimensions (the tests only use wide grids)", "anchors": ["src/sqrid/bf.rs:search_path", "src/sqrid/mappos.rs:camefrom_into_path"]}
{"id": "C54", "title": "bfs variants agree", "statement": "bfs_path_grid, bfs_path_hash and bfs_path_btree (and bf_iter_*) return identical results on the same arguments.", "quantifier": "all grids (every PosT type, such as Pos<XMAX,YMAX>, whose coordinates start at 0 and on which the arithmetic of a search fits a usize (the square of the number of columns, the number of positions plus twice the longest distance; every Pos on 64-bit machines)), go functions, origins, predicates", "why_tests_cant": "all graphs", "anchors": ["src/sqrid/bf.rs:search_path_grid", "src/sqrid/bf.rs:search_path_hash", "src/sqrid/bf.rs:search_path_btree"]}
{"id": "C55", "title": "astar_path returns a valid path", "statement": "If astar_path(go,orig,dest) is Ok(path) and go only steps between neighbours, following path from orig with go at each step leads to dest.", "quantifier": "all grids (every PosT type, such as Pos<XMAX,YMAX>, whose coordinates start at 0 and on which the arithmetic of a search fits a usize (the square of the number of columns, the number of positions plus twice the longest distance; every Pos on 64-bit machines)), all go functions consistent with Pos+Dir, both diagonal modes", "why_tests_cant": "all graphs", "anchors": ["src/sqrid/astar.rs:search_path"]}
{"id": "C56", "title": "astar_path always terminates without panicking", "statement": "For every go function astar_path returns after finitely many steps, without overflow or panic.", "quantifier": "all grids (every PosT type, such as Pos<XMAX,YMAX>, whose coordinates start at 0 and on which the arithmetic of a search fits a usize (the square of the number of columns, the number of positions plus twice the longest distance; every Pos on 64-bit machines)), all go functions, both diagonal modes", "why_tests_cant": "termination for all graphs", "anchors": ["src/sqrid/astar.rs:AstarIterator::next", "src/sqrid/astar.rs:search_mapmov"]}
{"id": "C57", "title": "astar_path fails only if dest is unreachable", "statement": "astar_path returns Ok iff dest is reachable from orig under go, and Err(DestinationUnreachable) otherwise.", "quantifier": "all grids (every PosT type, such as Pos<XMAX,YMAX>, whose coordinates start at 0 and on which the arithmetic of a search fits a usize (the square of the number of columns, the number of positions plus twice the longest distance; every Pos on 64-bit machines)), all go functions consistent with Pos+Dir, both diagonal modes", "why_tests_cant": "all graphs", "anchors": ["src/sqrid/astar.rs:search_path"]}
{"id": "C58", "title": "astar_path returns a shortest path", "statement": "If dest is reachable, the returned path has minimum length among all go-paths from orig to dest.", "quantifier": "all grids (every PosT type, such as Pos<XMAX,YMAX>, whose coordinates start at 0 and on which the arithmetic of a search fits a usize (the square of the number of columns, the number of positions plus twice the longest distance; every Pos on 64-bit machines)), all go functions consistent with Pos+Dir, both diagonal modes", "why_tests_cant": "all graphs; the tests only sample six mazes without diagonals", "anchors": ["src/sqrid/astar.rs:AstarIterator::next", "src/sqrid/astar.rs:search_mapmov"]}
{"id": "C59", "title": "astar variants agree", "statement": "astar_path_grid, astar_path_hash and astar_path_btree return identical results on the same arguments.", "quantifier": "all grids (every PosT type, such as Pos<XMAX,YMAX>, whose coordinates start at 0 and on which the arithmetic of a search fits a usize (the square of the number of columns, the number of positions plus twice the longest distance; every Pos on 64-bit machines)), go functions, endpoints", "why_tests_cant": "all graphs", "anchors": ["src/sqrid/astar.rs:search_path_grid", "src/sqrid/astar.rs:search_path_hash", "src/sqrid/astar.rs:search_path_btree"]}
{"id": "C60", "title": "AstarIterator first reaches each position at its true distance", "statement": "Without diagonals, the moment the iterator first yields a position, the number of steps it has recorded for it is its true distance from orig under go, and dest is first yielded at its true distance.", "quantifier": "all grids (every PosT type, such as Pos<XMAX,YMAX>, whose coordinates start at 0 and on which the arithmetic of a search fits a usize (the square of the number of columns, the number of positions plus twice the longest distance; every Pos on 64-bit machines)), all go functions consistent with Pos+Dir, all endpoints", "why_tests_cant": "all graphs", "anchors": ["src/sqrid/astar.rs:AstarIterator::next"]}
{"id": "C61", "title": "ucs_path returns a valid path", "statement": "If ucs_path(go,orig,dest) is Ok(path) and go only steps between neighbours, following path from orig with go at each step leads to dest.", "quantifier": "all grids (every PosT type, such as Pos<XMAX,YMAX>, whose coordinates start at 0 and on which the arithmetic of a search fits a usize (the square of the number of columns, the number of positions plus twice the longest distance; every Pos on 64-bit machines)), all go/cost functions consistent with Pos+Dir, both diagonal modes", "why_tests_cant": "all weighted graphs", "anchors": ["src/sqrid/ucs.rs:search_path"]}
{"id": "C62", "title": "ucs_path fails only if dest is unreachable", "statement": "ucs_path terminates and returns Ok iff dest is reachable from orig under go, and Err(DestinationUnreachable) otherwise (total costs below usize::MAX).", "quantifier": "all grids (every PosT type, such as Pos<XMAX,YMAX>, whose coordinates start at 0 and on which the arithmetic of a search fits a usize (the square of the number of columns, the number of positions plus twice the longest distance; every Pos on 64-bit machines)), all go/cost functions consistent with Pos+Dir", "why_tests_cant": "all weighted graphs; termination", "anchors": ["src/sqrid/ucs.rs:search_path", "src/sqrid/ucs.rs:UcsIterator::next"]}
{"id": "C63", "title": "ucs_path returns a cheapest path", "statement": "If dest is reachable, the returned path has minimum total cost among all go-paths from orig to dest.", "quantifier": "all grids (every PosT type, such as Pos<XMAX,YMAX>, whose coordinates start at 0 and on which the arithmetic of a search fits a usize (the square of the number of columns, the number of positions plus twice the longest distance; every Pos on 64-bit machines)), all go/cost functions consistent with Pos+Dir", "why_tests_cant": "all weighted graphs; the tests use only unit costs", "anchors": ["src/sqrid/ucs.rs:UcsIterator::next", "src/sqrid/ucs.rs:search_mapmov"]}
{"id": "C64", "title": "UcsIterator yields positions in cost order", "statement": "The first time the iterator yields a position, its recorded cost is the minimum cost of reaching it, and positions are first yielded in non-decreasing minimum cost.", "quantifier": "all grids (every PosT type, such as Pos<XMAX,YMAX>, whose coordinates start at 0 and on which the arithmetic of a search fits a usize (the square of the number of columns, the number of positions plus twice the longest distance; every Pos on 64-bit machines)), all go/cost functions with sums of costs that fit a usize, all origins", "why_tests_cant": "all weighted graphs", "anchors": ["src/sqrid/ucs.rs:UcsIterator::next"]}
{"id": "C65", "title": "ucs variants agree", "statement": "ucs_path_grid, ucs_path_hash and ucs_path_btree return identical results on the same arguments.", "quantifier": "all grids (every PosT type, such as Pos<XMAX,YMAX>, whose coordinates start at 0 and on which the arithmetic of a search fits a usize (the square of the number of columns, the number of positions plus twice the longest distance; every Pos on 64-bit machines)), go/cost functions, endpoints", "why_tests_cant": "all weighted graphs", "anchors": ["src/sqrid/ucs.rs:search_path_grid", "src/sqrid/ucs.rs:search_path_hash", "src/sqrid/ucs.rs:search_path_btree"]}
{"id": "C66", "title": "Step-cost overflow is the only way ucs_path can panic", "statement": "ucs_path never panics as long as no accumulated cost (cost of reaching a position plus the next step) exceeds usize::MAX.", "quantifier": "all grids (every PosT type, such as Pos<XMAX,YMAX>, whose coordinates start at 0 and on which the arithmetic of a search fits a usize (the square of the number of columns, the number of positions plus twice the longest distance; every Pos on 64-bit machines)), all go/cost functions", "why_tests_cant": "all weighted graphs", "anchors": ["src/sqrid/ucs.rs:UcsIterator::next"]}
{"id": "C67", "title": "Search algorithms agree on reachability and distance", "statement": "On the same unit-cost movement function between neighbours, for dest != orig: if dest is reachable, bfs_path (with goal 'pos==dest') and ucs_path return paths of the same, least, length, and astar_path does not report DestinationUnreachable (without diagonals it returns a path); if dest is not reachable, all three report DestinationUnreachable.", "quantifier": "all grids (every PosT type, such as Pos<XMAX,YMAX>, whose coordinates start at 0 and on which the arithmetic of a search fits a usize (the square of the number of columns, the number of positions plus twice the longest distance; every Pos on 64-bit machines)) with WIDTH>=HEIGHT, all go functions consistent with Pos+Dir", "why_tests_cant": "all graphs", "anchors": ["src/sqrid/bf.rs:search_path", "src/sqrid/astar.rs:search_path", "src/sqrid/ucs.rs:search_path"]}
{"id": "C68", "title": "Printing a Grid draws every cell at its place", "statement": "Formatting a Grid with any width, fill, alignment and precision never panics; the text has the column numbers written vertically above and below the grid, then one line per row with the row number and the padded text of each cell of the row, in column order. The padding cuts the text to the precision and fills it up to the width with the fill character, after the text by default, before it with '>', and on both sides with '^', with at most one more after it.", "quantifier": "all grids (every PosT type, such as Pos<XMAX,YMAX>, whose coordinates start at 0 and whose positions can be counted in a usize), all contents, all format options, all element formatters", "why_tests_cant": "unbounded sizes (the label widths change at powers of ten) and free format options", "anchors": ["src/sqrid/grid.rs:display_fmt_helper", "src/sqrid/grid.rs:Grid::fmt"]}
{"id": "C69", "title": "The text of a Gridbool determines it", "statement": "Formatting a Gridbool never panics; with '{}' the character of position (x,y) is '#' if get is true and '.' otherwise, at line y and column x after the labels; two gridbools print the same text exactly when get agrees at every position (for any format that does not truncate to zero characters).", "quantifier": "all grids (every PosT type, such as Pos<XMAX,YMAX>, whose coordinates start at 0 and whose positions can be counted in a usize) with an accepted WORDS, all contents, all format options", "why_tests_cant": "all contents and sizes", "anchors": ["src/sqrid/gridbool.rs:Gridbool::fmt", "src/sqrid/grid.rs:display_fmt_helper"]}
{"id": "C70", "title": "The text of a Pos determines it", "statement": "A Pos prints as '(x,y)' in decimal, and two different positions never print the same text.", "quantifier": "all XMAX, YMAX, all pairs of positions", "why_tests_cant": "all pairs of positions", "anchors": ["src/sqrid/pos.rs:Pos::fmt"]}
{"id": "C71", "title": "The named positions and sizes of Pos", "statement": "FIRST/TOP_LEFT, TOP_RIGHT, BOTTOM_LEFT and LAST/BOTTOM_RIGHT are valid, are exactly the positions for which is_corner is true, and each is extreme in both coordinates; CENTER is valid and as far from the first as from the last column (row), up to one. Pos::WIDTH, HEIGHT and SIZE are the numbers of columns, rows and positions for every XMAX, YMAX up to 65534; at 65535 they do not compile, while PosT::dimensions still gives the number of positions.", "quantifier": "all XMAX, YMAX", "why_tests_cant": "2^32 pairs of dimensions, with a boundary at 65535", "anchors": ["src/sqrid/pos.rs:Pos::FIRST", "src/sqrid/pos.rs:Pos::LAST", "src/sqrid/pos.rs:Pos::CENTER", "src/sqrid/pos.rs:Pos::TOP_RIGHT", "src/sqrid/pos.rs:Pos::BOTTOM_LEFT", "src/sqrid/pos.rs:Pos::WIDTH", "src/sqrid/pos.rs:Pos::HEIGHT", "src/sqrid/pos.rs:Pos::SIZE", "src/sqrid/postrait.rs:PosT::is_corner"]}
{"id": "C72", "title": "Conversions of positions lose nothing", "statement": "Converting a Pos into (u16,u16), (i32,i32) or usize and back gives the same Pos; x(), y(), tuple() and inner_tuple() give the coordinates passed to new; tryfrom_pos between two position types succeeds exactly when the coordinates are a position of the target type, and then keeps them; new_static compiles exactly when new succeeds, with the same result.", "quantifier": "all XMAX, YMAX, all positions, all pairs of position types", "why_tests_cant": "all types and positions, including signed and wider coordinates", "anchors": ["src/sqrid/pos.rs:impl From<Pos> for (u16, u16)", "src/sqrid/pos.rs:impl From<Pos> for (i32, i32)", "src/sqrid/pos.rs:impl From<Pos> for usize", "src/sqrid/pos.rs:impl TryFrom for Pos", "src/sqrid/pos.rs:Pos::new_static", "src/sqrid/postrait.rs:PosT::tryfrom_pos", "src/sqrid/postrait.rs:PosT::inner_tuple"]}
{"id": "C73", "title": "The order of positions", "statement": "Ord on positions compares x first and then y; it is a strict total order whose equality is equality of positions. first() is its least and last() its greatest position, and iter_vertical() visits the positions in strictly increasing order. iter() (horizontal) does so only in grids of a single column or row.", "quantifier": "all position types, all pairs of positions", "why_tests_cant": "all pairs of positions of all types", "anchors": ["src/sqrid/pos.rs:derive(Ord) for Pos", "src/sqrid/postrait.rs:PosT::first", "src/sqrid/postrait.rs:PosT::last", "src/sqrid/postrait.rs:PosT::iter_vertical"]}
{"id": "C74", "title": "Comparison of grids, raw arrays and iter_mut agree with get", "statement": "Two grids are == exactly when the cells are == at every position; cmp is decided by the first position in reading order where the cells differ. The item at index i of as_array / as_ref / into_inner is the cell at tryfrom_usize(i), a write through as_array_mut / as_mut at i is a write of that cell, and indexes that tryfrom_usize rejects panic. iter_mut reaches every cell once.", "quantifier": "all grids (every PosT type, such as Pos<XMAX,YMAX>, whose coordinates start at 0 and whose positions can be counted in a usize), element types, contents, positions and indexes", "why_tests_cant": "all contents, positions and indexes", "anchors": ["src/sqrid/grid.rs:derive(PartialEq, Eq, PartialOrd, Ord) for Grid", "src/sqrid/grid.rs:Grid::as_array", "src/sqrid/grid.rs:Grid::as_array_mut", "src/sqrid/grid.rs:Grid::into_inner", "src/sqrid/grid.rs:Grid::iter_mut"]}
{"id": "C75", "title": "Raw words of a Gridbool", "statement": "The bit of the position of index i is bit 31 - i % 32 of word i / 32 of as_inner / into_inner; writing word k through as_inner_mut sets the bits of the positions with i / 32 = k and no other; an index not below WORDS panics. Between gridbools built from the same repeat(b), a < b exactly when at the first position in reading order where they differ a is false and b is true.", "quantifier": "all grids (every PosT type, such as Pos<XMAX,YMAX>, whose coordinates start at 0 and whose positions can be counted in a usize) with an accepted WORDS, all contents, positions, words and word values", "why_tests_cant": "all contents and word values", "anchors": ["src/sqrid/gridbool.rs:Gridbool::as_inner", "src/sqrid/gridbool.rs:Gridbool::as_inner_mut", "src/sqrid/gridbool.rs:Gridbool::into_inner", "src/sqrid/gridbool.rs:derive(PartialOrd, Ord) for Gridbool"]}
{"id": "C76", "title": "to_usize and width on every position type", "statement": "For every position type, width() and height() are the numbers of columns and rows, and to_usize() is the rank of the position in reading order; to_usize is injective and tryfrom_usize inverts it.", "quantifier": "all position types (Pos, tuples of bounded integers, tuples of primitive integers), all positions", "why_tests_cant": "all types and positions; fails for types whose coordinates do not start at 0", "anchors": ["src/sqrid/postrait.rs:PosT::to_usize", "src/sqrid/postrait.rs:PosT::tryfrom_usize", "src/sqrid/postrait.rs:PosT::width", "src/sqrid/postrait.rs:PosT::height", "src/sqrid/postrait.rs:PosT::dimensions"]}
{"id": "C77", "title": "Flips and rotations on every position type", "statement": "For every position type, flip_h and flip_v mirror the position in its bounds (x to MIN + MAX - x), and the rotations are total on square types.", "quantifier": "all position types, all positions", "why_tests_cant": "all types and positions; fails for types whose coordinates do not start at 0", "anchors": ["src/sqrid/postrait.rs:PosT::flip_h", "src/sqrid/postrait.rs:PosT::flip_v", "src/sqrid/postrait.rs:PosT::rotate_cw", "src/sqrid/postrait.rs:PosT::rotate_cc"]}
{"id": "C78", "title": "Error texts", "statement": "Every error has a non-empty text and different errors have different texts.", "quantifier": "all pairs of errors", "why_tests_cant": "a pairwise property; each new variant must be checked against all others", "anchors": ["src/sqrid/error.rs:Error::fmt"]}
{"id": "C79", "title": "Safe code cannot read outside of a grid", "statement": "A Pos made in safe code, by any sequence of constructors, conversions, constants, moves, flips, rotations and iterators, indexes a Grid of the right SIZE inside its array.", "quantifier": "all XMAX, YMAX, all ways to make a Pos in safe code, all grids", "why_tests_cant": "all sequences of operations; Grid::get uses get_unchecked, so a violation is undefined behaviour and may pass any test", "anchors": ["src/sqrid/pos.rs:Pos", "src/sqrid/pos.rs:impl From<(BoundedU16, BoundedU16)> for Pos", "src/sqrid/boundedint.rs:impl From<bool>", "src/sqrid/grid.rs:Grid::get", "src/sqrid/grid.rs:Grid::get_mut"]}
{"id": "C80", "title": "The order of a breadth-first traversal", "statement": "The first layer of bf_iter lists the positions one allowed step from the origin, each following layer the positions not seen before that are one allowed step from the previous layer, in the order found when the previous layer is scanned in its own order and, for each of its positions, the directions in the order of Dir::iter (clockwise from N); each position is listed once, with the opposite of the direction by which it was first found.", "quantifier": "all grids (every PosT type, such as Pos<XMAX,YMAX>, whose coordinates start at 0 and whose positions can be counted in a usize), both direction modes, every movement function, every origin, every layer", "why_tests_cant": "all grids and movement functions", "anchors": ["src/sqrid/bf.rs:BfIterator::next", "src/sqrid/bf.rs:BfIterator::new", "src/sqrid/bf.rs:bf_iter_grid", "src/sqrid/bf.rs:bf_iter_hash", "src/sqrid/bf.rs:bf_iter_btree"]}
{"id": "C81", "title": "Which goal a breadth-first search picks", "statement": "Unless it reports Loop, bfs_path returns the first position, in the order of bf_iter, for which found is true, and its path leads back to the origin by the directions that bf_iter gives with the positions.", "quantifier": "all grids (every PosT type, such as Pos<XMAX,YMAX>, whose coordinates start at 0 and on which the arithmetic of a search fits a usize (the square of the number of columns, the number of positions plus twice the longest distance; every Pos on 64-bit machines)), both direction modes, every movement function, origin and goal test", "why_tests_cant": "all grids, movement functions and goal tests; depends on tie-breaking", "anchors": ["src/sqrid/bf.rs:search_mapmov", "src/sqrid/bf.rs:search_path", "src/sqrid/bf.rs:bfs_path_grid"]}
{"id": "C82", "title": "Distances in an open grid", "statement": "With the movement function of the grid itself (+ Dir), the number of moves from a to b is |dx|+|dy| without and max(|dx|,|dy|) with diagonals: bf_iter lists in layer n exactly the positions at that distance n+1, and bfs_path and ucs_path with unit costs return paths of exactly that length; so does astar_path without diagonals. A length above the square of the number of columns (only possible in tall grids) is reported as Loop instead.", "quantifier": "all grids (every PosT type, such as Pos<XMAX,YMAX>, whose coordinates start at 0 and on which the arithmetic of a search fits a usize (the square of the number of columns, the number of positions plus twice the longest distance; every Pos on 64-bit machines)), all origins and destinations, both direction modes", "why_tests_cant": "all grids and pairs of positions", "anchors": ["src/sqrid/bf.rs:bf_iter_grid", "src/sqrid/bf.rs:bfs_path_grid", "src/sqrid/astar.rs:astar_path_grid", "src/sqrid/ucs.rs:ucs_path_grid", "src/sqrid/posdir.rs:pos_dir_add_ok"]}
{"id": "C83", "title": "From a position to itself", "statement": "astar_path and ucs_path from a position to itself return the empty path, whatever the movement function and the costs, without panic.", "quantifier": "all grids (every PosT type, such as Pos<XMAX,YMAX>, whose coordinates start at 0 and on which the arithmetic of a search fits a usize (the square of the number of columns, the number of positions plus twice the longest distance; every Pos on 64-bit machines)), positions, movement functions, costs, both direction modes, all three implementations", "why_tests_cant": "all movement functions and costs, including costs near usize::MAX", "anchors": ["src/sqrid/astar.rs:search_mapmov", "src/sqrid/astar.rs:search_path", "src/sqrid/ucs.rs:search_mapmov", "src/sqrid/ucs.rs:search_path", "src/sqrid/mappos.rs:camefrom_into_path"]}
{"id": "C84", "title": "Searches look only where they can get", "statement": "The results of bf_iter, bfs_path, astar_path and ucs_path depend only on the values of the movement function (and goal test) at positions reachable from the origin, for directions of the mode: two functions that agree there give the same result.", "quantifier": "all pairs of movement functions (and goal tests) that agree at the reachable positions, all implementations", "why_tests_cant": "all pairs of functions", "anchors": ["src/sqrid/bf.rs:BfIterator::next", "src/sqrid/astar.rs:AstarIterator::next", "src/sqrid/ucs.rs:UcsIterator::next", "src/sqrid/bf.rs:bfs_path_grid", "src/sqrid/bf.rs:bfs_path_hash", "src/sqrid/bf.rs:bfs_path_btree", "src/sqrid/astar.rs:astar_path_grid", "src/sqrid/astar.rs:astar_path_hash", "src/sqrid/astar.rs:astar_path_btree", "src/sqrid/ucs.rs:ucs_path_grid", "src/sqrid/ucs.rs:ucs_path_hash", "src/sqrid/ucs.rs:ucs_path_btree"]}
{"id": "C85", "title": "Searching in the other direction", "statement": "If every movement can be undone by the opposite direction, bfs_path (and ucs_path with unit costs) from a to b and from b to a return paths of the same length, or the same error.", "quantifier": "all grids (every PosT type, such as Pos<XMAX,YMAX>, whose coordinates start at 0 and on which the arithmetic of a search fits a usize (the square of the number of columns, the number of positions plus twice the longest distance; every Pos on 64-bit machines)), pairs of positions, movement functions that can be undone, both direction modes, all three implementations", "why_tests_cant": "all grids, walls and pairs of positions", "anchors": ["src/sqrid/bf.rs:search_path", "src/sqrid/ucs.rs:search_path"]}
{"id": "C86", "title": "Search iterators are fused", "statement": "After the iterator of a traversal or search (bf, A*, ucs) has returned None, it returns None for ever.", "quantifier": "all states, movement functions, set and map implementations", "why_tests_cant": "all states of the iterators", "anchors": ["src/sqrid/bf.rs:BfIterator::next", "src/sqrid/astar.rs:AstarIterator::next", "src/sqrid/ucs.rs:UcsIterator::next"]}
{"id": "C87", "title": "More movements never hurt", "statement": "If a movement function is extended by more movements, and/or diagonals are allowed, bfs_path (and ucs_path with unit costs) that found a path still finds one, and it is not longer.", "quantifier": "all grids (every PosT type, such as Pos<XMAX,YMAX>, whose coordinates start at 0 and on which the arithmetic of a search fits a usize (the square of the number of columns, the number of positions plus twice the longest distance; every Pos on 64-bit machines)), all pairs of movement functions of which one extends the other, both direction modes, all origins and goals", "why_tests_cant": "all pairs of movement functions", "anchors": ["src/sqrid/bf.rs:search_path", "src/sqrid/ucs.rs:search_path"]}
{"id": "C88", "title": "A* with diagonals goes straight", "statement": "With diagonals, if all the steps that go towards the destination in both coordinates are allowed on the way, astar_path returns exactly these steps: max(|dx|,|dy|) steps, first the diagonal ones, then the straight ones; so it does on a grid without obstacles. If that is more steps than the square of the number of columns (only possible in tall grids) it reports Loop.", "quantifier": "all grids (every PosT type, such as Pos<XMAX,YMAX>, whose coordinates start at 0 and on which the arithmetic of a search fits a usize (the square of the number of columns, the number of positions plus twice the longest distance; every Pos on 64-bit machines)), origins, destinations and movement functions that allow these steps, whatever they allow elsewhere", "why_tests_cant": "all grids and obstacles beside the line; the heuristic is not admissible with diagonals, so optimality does not follow from the usual argument", "anchors": ["src/sqrid/astar.rs:AstarIterator::next", "src/sqrid/astar.rs:search_path", "src/sqrid/astar.rs:astar_path_grid"]}
{"id": "C89", "title": "Where a returned path may lead", "statement": "Without diagonals, every position q on the path of astar_path satisfies dist(origin,q) + |q - destination|_1 <= dist(origin,destination). Every position on the path of ucs_path can be reached at most as expensively as the destination.", "quantifier": "all grids (every PosT type, such as Pos<XMAX,YMAX>, whose coordinates start at 0 and on which the arithmetic of a search fits a usize (the square of the number of columns, the number of positions plus twice the longest distance; every Pos on 64-bit machines)), movement functions, costs, origins, destinations, all positions on the path", "why_tests_cant": "all grids, obstacles and costs", "anchors": ["src/sqrid/astar.rs:search_path", "src/sqrid/ucs.rs:search_path"]}
{"id": "C90", "title": "Prefixes of a breadth-first path are shortest", "statement": "Every prefix of the path of bfs_path is a shortest path to the position it leads to, and the rest is a shortest path from there.", "quantifier": "all grids (every PosT type, such as Pos<XMAX,YMAX>, whose coordinates start at 0 and on which the arithmetic of a search fits a usize (the square of the number of columns, the number of positions plus twice the longest distance; every Pos on 64-bit machines)), movement functions, origins, goal tests, both direction modes", "why_tests_cant": "all grids, obstacles and goals", "anchors": ["src/sqrid/bf.rs:search_path"]}
{"id": "C91", "title": "Returned paths have no cycles", "statement": "No path returned by bfs_path, astar_path or ucs_path visits a position twice.", "quantifier": "all grids (every PosT type, such as Pos<XMAX,YMAX>, whose coordinates start at 0 and on which the arithmetic of a search fits a usize (the square of the number of columns, the number of positions plus twice the longest distance; every Pos on 64-bit machines)), movement functions, costs, origins, goals, both direction modes, all implementations", "why_tests_cant": "all grids, obstacles and costs; A* reopens positions, so its came-from map changes while it is built", "anchors": ["src/sqrid/bf.rs:bfs_path_grid", "src/sqrid/bf.rs:bfs_path_hash", "src/sqrid/bf.rs:bfs_path_btree", "src/sqrid/astar.rs:astar_path_grid", "src/sqrid/astar.rs:astar_path_hash", "src/sqrid/astar.rs:astar_path_btree", "src/sqrid/ucs.rs:ucs_path_grid", "src/sqrid/ucs.rs:ucs_path_hash", "src/sqrid/ucs.rs:ucs_path_btree", "src/sqrid/mappos.rs:camefrom_into_path"]}
{"id": "C92", "title": "A Sqrid type fits its own positions", "statement": "For the types made by sqrid_create! (in both of its forms), pos_create!, grid_create! and gridbool_create!, the calls compile and the functions bf_iter*, bfs_path*, astar_path* and ucs_path* of the Sqrid type behave as all the properties about the traversal and the searches say, for positions of its own Pos type.", "quantifier": "all XMAX, YMAX in u16 on which the arithmetic of a search fits a usize (all of them on 64-bit machines), both direction modes", "why_tests_cant": "2^33 types; a wrong WORDS or SIZE is memory-unsafe, not a failing test", "anchors": ["src/sqrid/base.rs:sqrid_create", "src/sqrid/pos.rs:pos_create", "src/sqrid/grid.rs:grid_create", "src/sqrid/gridbool.rs:gridbool_create", "src/sqrid/bf.rs:bf_iter", "src/sqrid/bf.rs:bfs_path", "src/sqrid/astar.rs:astar_path", "src/sqrid/ucs.rs:ucs_path"]}
{"id": "C93", "title": "The searches are memory-safe with any position type", "statement": "The functions of a Sqrid type, called from safe code with positions of any type, not only its own, either do not compile or have no undefined behaviour; when there are at most SIZE positions, the result is that of the hash implementation.", "quantifier": "all Sqrid types, all position types, movement functions, origins, destinations", "why_tests_cant": "all pairs of types; out-of-bounds get_unchecked may pass any test", "anchors": ["src/sqrid/bf.rs:bfs_path", "src/sqrid/astar.rs:astar_path", "src/sqrid/ucs.rs:ucs_path", "src/sqrid/grid.rs:Grid::_ASSERTS", "src/sqrid/mappos.rs:MapPos for Grid"]}
{"id": "C94", "title": "Side effects of closures do not change results", "statement": "If a closure always answers the same for the same arguments, whatever else it does (count, cache, log), then bf_iter, bfs_path, astar_path and ucs_path return the same as with the plain function.", "quantifier": "all worlds the closures can read and change, all closures whose answers are a function of their arguments, origins, destinations, sets and maps, both direction modes", "why_tests_cant": "all closures and all side effects", "anchors": ["src/sqrid/bf.rs:bf_iter", "src/sqrid/bf.rs:bfs_path", "src/sqrid/astar.rs:astar_path", "src/sqrid/ucs.rs:ucs_path"]}
{"id": "C95", "title": "Order and number of the calls of a closure", "statement": "However far an iterator is taken, the movement closure has been called exactly once per direction of the mode, clockwise, from each position expanded and in the order they are yielded, and never otherwise. bf_iter expands the origin on creation; the A* and UCS iterators do not call the closure until next is called. This holds for any closure, even if it answers differently each time; the only other outcome is a panic, of the closure or (UCS, in builds with overflow checks) of an overflow.", "quantifier": "all closures that answer positions of the type, nothing, or panic; all origins, destinations and numbers of calls of next; all sets and maps; all grids on which the arithmetic of a search fits a usize (every Pos on 64-bit machines)", "why_tests_cant": "all histories of answers of a closure with state", "anchors": ["src/sqrid/bf.rs:bf_iter", "src/sqrid/astar.rs:AstarIterator", "src/sqrid/ucs.rs:UcsIterator"]}
{"id": "C96", "title": "bf_iter with any closure", "statement": "With a closure that answers whatever position of the type, differently each time if it likes, bf_iter ends. It yields each position answered other than the origin exactly once, in the order of the first answers, with the opposite of the direction of that call; it yields the origin, once, iff a call from the origin in the first round answered it; no layer is empty. It panics only if the closure does.", "quantifier": "all closures that answer positions of the type, nothing, or panic; all origins, sets, direction modes", "why_tests_cant": "all histories of answers", "anchors": ["src/sqrid/bf.rs:bf_iter", "src/sqrid/bf.rs:BfIterator"]}
{"id": "C97", "title": "bfs_path with any closures", "statement": "With any closures bfs_path ends. The predicate gets the positions answered, in the order of the first answers, none twice, until it says yes. If it never does, the result is DestinationUnreachable and every position answered has been tried. Otherwise the result is that position with a path of steps on the grid to it, or Loop or InvalidMovement. It panics only if a closure does.", "quantifier": "all movement closures and predicates with state, all origins, sets, maps, direction modes; all grids on which the arithmetic of a search fits a usize (every Pos on 64-bit machines)", "why_tests_cant": "all histories of answers", "anchors": ["src/sqrid/bf.rs:bfs_path", "src/sqrid/bf.rs:search_path"]}
{"id": "C98", "title": "astar_path with any closure", "statement": "With any closure astar_path ends, after at most the square of the number of positions plus one items. The result is DestinationUnreachable iff the destination is not the origin and never was an answer; otherwise it is a path of steps on the grid to the destination, or Loop or InvalidMovement. It panics only if the closure does.", "quantifier": "all movement closures with state, all origins, destinations, maps, direction modes; all grids on which the arithmetic of a search fits a usize (every Pos on 64-bit machines)", "why_tests_cant": "all histories of answers", "anchors": ["src/sqrid/astar.rs:astar_path", "src/sqrid/astar.rs:search_path"]}
{"id": "C99", "title": "ucs_path with any closure", "statement": "With any closure ucs_path ends, in a result as in C98, or in a panic of the closure or, in builds with overflow checks, of an overflow of the cost. There is no overflow if the largest cost of a step times the number of positions is below usize::MAX; then DestinationUnreachable means that the destination never was an answer.", "quantifier": "all movement closures with state and their costs, all origins, destinations, maps, direction modes; all grids on which the arithmetic of a search fits a usize (every Pos on 64-bit machines)", "why_tests_cant": "all histories of answers and costs", "anchors": ["src/sqrid/ucs.rs:ucs_path", "src/sqrid/ucs.rs:search_path"]}
{"id": "C100", "title": "Searches with walls that change", "statement": "With a closure that answers nothing or the neighbour in the direction asked, but not always the same, bfs_path, astar_path and ucs_path never return InvalidMovement, and every step of a path they return was granted by the closure during this search. bfs_path returns Loop only on grids with more rows than columns. For astar_path and ucs_path there are such closures that lead to Loop on a square grid without diagonals, where it never happens with walls that stay.", "quantifier": "all closures with state that answer neighbours, nothing or panic; all predicates, origins, destinations, sets, maps, direction modes; all grids on which the arithmetic of a search fits a usize (every Pos on 64-bit machines)", "why_tests_cant": "all histories of walls and costs", "anchors": ["src/sqrid/bf.rs:bfs_path", "src/sqrid/astar.rs:astar_path", "src/sqrid/ucs.rs:ucs_path"]}
{"id": "C101", "title": "Gridbool is memory-safe with every position type", "statement": "No function of Gridbool has undefined behaviour, whatever the position type and the number of words. get and set panic if to_usize does or if there is no word for the index; otherwise set changes the bit of that index alone and get reads it. Flips of a Gridbool over a type with negative coordinates (and coordinates above 0 that fit in usize) panic, in every build.", "quantifier": "all position types, numbers and contents of words, positions, values", "why_tests_cant": "all types; out-of-bounds accesses may pass any test", "anchors": ["src/sqrid/gridbool.rs:get", "src/sqrid/gridbool.rs:set", "src/sqrid/gridbool.rs:set_t", "src/sqrid/gridbool.rs:set_f", "src/sqrid/gridbool.rs:flip_h", "src/sqrid/gridbool.rs:rotate_cw"]}
{"id": "C102", "title": "Order of directions", "statement": "The derived order of Dir is the clockwise order starting at N: strict, total, transitive, with N the smallest.", "quantifier": "all triples of directions", "why_tests_cant": "it is what breaks ties in A* and UCS; a test of some pairs does not give the laws of an order", "anchors": ["src/sqrid/dir.rs:Dir"]}
{"id": "C103", "title": "Release builds agree with debug builds that do not panic", "statement": "Whenever a call does not panic in a debug build, the same call in a release build returns the same value, leaves the same contents and makes the same calls to its closures. A release build has undefined behaviour only where a debug build has it or panics.", "quantifier": "all functions of positions, iterators, grids, gridbools, traversals, searches and Sqrid types; all arguments, closures, contents", "why_tests_cant": "tests run in one build; overflow checks must not change any result they let through", "anchors": ["src/sqrid/postrait.rs:PosT", "src/sqrid/grid.rs:Grid", "src/sqrid/gridbool.rs:Gridbool", "src/sqrid/bf.rs:bfs_path", "src/sqrid/astar.rs:astar_path", "src/sqrid/ucs.rs:ucs_path", "src/sqrid/base.rs:Sqrid", "src/sqrid/mappos.rs:camefrom_into_path", "src/sqrid/astar.rs:AstarIterator", "src/sqrid/ucs.rs:UcsIterator"]}
{"id": "C104", "title": "Positions in release builds", "statement": "In a release build width, height, dimensions, to_usize, manhattan and the rotations are the exact results modulo the size of the type. Different positions have different to_usize if all indices fit in a usize (false for some types: to_usize then returns the same number for different positions).", "quantifier": "all position types, positions and numbers, with 32-bit and 64-bit usize", "why_tests_cant": "debug tests panic where release builds return a wrapped number", "anchors": ["src/sqrid/postrait.rs:to_usize", "src/sqrid/postrait.rs:width", "src/sqrid/postrait.rs:dimensions", "src/sqrid/postrait.rs:manhattan", "src/sqrid/postrait.rs:rotate_cw"]}
{"id": "C105", "title": "Uniform-cost search in release builds", "statement": "In a release build ucs_path returns a cheapest path if the cost of a step depends only on the position it leads to. (False if sums of costs wrap around.) Whatever the costs, it ends without panicking, a path it returns leads to the destination, and for an unreachable destination it returns DestinationUnreachable.", "quantifier": "all grids on which the arithmetic of a search fits a usize (every Pos on 64-bit machines), closures with steps to neighbours, costs, origins, destinations, maps", "why_tests_cant": "all costs up to the largest usize, in builds that tests do not run", "anchors": ["src/sqrid/ucs.rs:ucs_path", "src/sqrid/ucs.rs:UcsIterator"]}
{"id": "C106", "title": "Pos on every machine", "statement": "For every Pos<XMAX, YMAX>, on 32-bit and 64-bit machines and in debug and release builds, width and height are the numbers of columns and lines, to_usize is the rank in reading order, tryfrom_usize inverts it, and dimensions is the number of positions. (False for dimensions of Pos<65535, 65535> on 32-bit machines.)", "quantifier": "all XMAX, YMAX, positions, numbers, usize sizes, builds", "why_tests_cant": "tests run on one machine", "anchors": ["src/sqrid/pos.rs:Pos", "src/sqrid/postrait.rs:PosT"]}
{"id": "C107", "title": "Sets, maps and breadth-first traversal in every position type", "statement": "With any position type, hash and btree sets contain exactly the positions last inserted, hash and btree maps return the last value set, and bf_iter_hash and bf_iter_btree yield every reachable position once, layer by layer in order of distance, each with a direction to a position one step closer.", "quantifier": "all position types (Pos and tuples of integers, with negative coordinates and of any size), builds and sizes of usize; all histories, closures, origins", "why_tests_cant": "unbounded histories; types with more positions than a test can visit", "anchors": ["src/sqrid/setpos.rs:SetPos", "src/sqrid/mappos.rs:MapPos", "src/sqrid/bf.rs:bf_iter_hash", "src/sqrid/bf.rs:bf_iter_btree"]}
{"id": "C108", "title": "Breadth-first search in every position type", "statement": "With any position type, bfs_path_hash and bfs_path_btree return a shortest path to a nearest goal if one can be reached and DestinationUnreachable if not. (False: with tuples of u32, u64 and u128 no path is ever returned, only a panic or Loop; with signed types it panics if the goal is further away along an axis than the largest coordinate; paths longer than (XMAX+1) squared give Loop.)", "quantifier": "all position types (Pos and tuples of integers, with negative coordinates and of any size), builds and sizes of usize; all closures with steps to neighbours, predicates, origins", "why_tests_cant": "the failures depend on distances and types that small tests do not reach", "anchors": ["src/sqrid/bf.rs:bfs_path_hash", "src/sqrid/bf.rs:bfs_path_btree", "src/sqrid/mappos.rs:camefrom_into_path", "src/sqrid/postrait.rs:manhattan"]}
{"id": "C109", "title": "A* in every position type", "statement": "With any position type, astar_path_hash and astar_path_btree without diagonals return a path if the destination can be reached, a shortest one if no detour is needed, and DestinationUnreachable if not. (False as for the breadth-first search; also if the distance from a visited position to the destination does not fit.)", "quantifier": "all position types (Pos and tuples of integers, with negative coordinates and of any size), builds and sizes of usize; all closures with steps to neighbours, origins, destinations", "why_tests_cant": "the failures depend on distances and types that small tests do not reach", "anchors": ["src/sqrid/astar.rs:astar_path_hash", "src/sqrid/astar.rs:astar_path_btree", "src/sqrid/mappos.rs:camefrom_into_path"]}
{"id": "C110", "title": "Uniform-cost search in every position type", "statement": "With any position type, ucs_path_hash and ucs_path_btree return a path if the destination can be reached at a cost below the limit of usize, a cheapest one if the cost of a step depends only on the position it leads to, and DestinationUnreachable if not. (False as for the breadth-first search.)", "quantifier": "all position types (Pos and tuples of integers, with negative coordinates and of any size), builds and sizes of usize; all closures with steps to neighbours, costs, origins, destinations", "why_tests_cant": "the failures depend on distances and types that small tests do not reach", "anchors": ["src/sqrid/ucs.rs:ucs_path_hash", "src/sqrid/ucs.rs:ucs_path_btree", "src/sqrid/mappos.rs:camefrom_into_path"]}
{"id": "C111", "title": "Path reconstruction in every position type", "statement": "With any position type, a path that camefrom_into_path returns leads from the origin to the destination along the directions of the map, and its result is determined by the way that these directions lead: DestinationUnreachable if there is no direction at the destination, the path if the way arrives within (XMAX+1) squared steps, InvalidMovement if it gets stuck, Loop otherwise. If its arithmetic does not fit the types it panics in debug builds.", "quantifier": "all position types (Pos and tuples of integers, with negative coordinates and of any size), builds and sizes of usize; all maps, origins, destinations", "why_tests_cant": "all contents of the map, including ones no search produces", "anchors": ["src/sqrid/mappos.rs:camefrom_into_path"]}
{"id": "C112", "title": "Hash sets and maps work with every hash function", "statement": "Bounded integers, positions, directions and boolean grids feed a hasher the same data exactly if they are equal, and grids of equal items do; a position feeds it its two integers, x first, each as its own type. Hash sets and maps of positions keep their contents whatever the hash function, also if positions collide; and the breadth-first traversal and the three searches with hash collections return the same result whatever the hash functions, the same as with btree collections.", "quantifier": "all values, position types, hash functions, histories, closures, origins, destinations, builds and sizes of usize", "why_tests_cant": "std seeds its hash functions at random in each run; a test sees one seed at a time", "anchors": ["src/sqrid/pos.rs:Pos", "src/sqrid/boundedint.rs:BoundedU16", "src/sqrid/dir.rs:Dir", "src/sqrid/grid.rs:Grid", "src/sqrid/gridbool.rs:Gridbool", "src/sqrid/setpos.rs:SetPos", "src/sqrid/mappos.rs:MapPos", "src/sqrid/bf.rs:search_path_hash", "src/sqrid/astar.rs:search_path_hash", "src/sqrid/ucs.rs:search_path_hash"]}
{"id": "C113", "title": "The texts of bounded integers, and the texts for debugging", "statement": "Display and Debug write a bounded integer in decimal, whatever the format options, so different values have different texts. Debug writes a position as Pos((x, y)) and a direction as its name, different for different values.", "quantifier": "all values and format options", "why_tests_cant": "all values of all types", "anchors": ["src/sqrid/boundedint.rs:Display", "src/sqrid/boundedint.rs:Debug", "src/sqrid/pos.rs:Pos", "src/sqrid/dir.rs:Dir"]}
{"id": "C114", "title": "Nothing depends on how the priority queue arranges its entries", "statement": "A* and the uniform-cost search, and their iterators, yield the same with every correct priority queue: as entries have no ties, no result depends on how the queue arranges them. std's BinaryHeap algorithm (sifting in an array) is a correct priority queue.", "quantifier": "all priority queues, histories of the queue, movement functions, collections, origins, destinations, builds and sizes of usize", "why_tests_cant": "the arrangement of a heap depends on its whole history", "anchors": ["src/sqrid/astar.rs:AstarIterator", "src/sqrid/astar.rs:search_path", "src/sqrid/ucs.rs:UcsIterator", "src/sqrid/ucs.rs:search_path"]}
{"id": "C115", "title": "The searches work with every correct collection of one's own", "statement": "SetPos and MapPos are public traits. With every implementation that keeps what is put into it, the breadth-first traversal, the three searches and camefrom_into_path return what they return with the hash collections; the Default of the map of costs plays no role. The collections of the crate are correct in this sense: grids and boolean grids large enough, hash and btree collections.", "quantifier": "all implementations of the traits, movement functions that stay in the grid, origins, destinations, position types, builds and sizes of usize", "why_tests_cant": "all implementations a user may write", "anchors": ["src/sqrid/setpos.rs:SetPos", "src/sqrid/mappos.rs:MapPos", "src/sqrid/bf.rs:search_path", "src/sqrid/astar.rs:search_path", "src/sqrid/ucs.rs:search_path", "src/sqrid/mappos.rs:camefrom_into_path"]}
{"id": "C116", "title": "Grid with every position type", "statement": "With any type of positions, any SIZE and in every build, only reading and writing at a position can leave the array of a Grid; lines, flips, rotations, negation and conversions cannot. Access panics where to_usize panics, touches the item at that index alone if it is in the array, and is undefined behaviour beyond it. So a Grid over a type that includes the position (0,0) is safe at all positions exactly if SIZE is at least (XMAX+1)*(YMAX+1), or every access panics because XMAX+1 (in release builds: XMAX) does not fit in usize. line is the items from y*(XMAX+1), or a panic (in release builds modulo 2^64). Writing through line_mut panics where line does and past the end of the line, and otherwise changes one cell of the line and nothing before or after it. Flips of a Grid over a type with negative coordinates (and coordinates above 0 that fit in usize) panic.", "quantifier": "all position types, SIZEs, contents, positions, lines, builds and sizes of usize", "why_tests_cant": "undefined behaviour does not show in tests; all types and sizes", "anchors": ["src/sqrid/grid.rs:get", "src/sqrid/grid.rs:get_mut", "src/sqrid/grid.rs:line", "src/sqrid/grid.rs:line_mut", "src/sqrid/grid.rs:flip_h", "src/sqrid/grid.rs:flip_v", "src/sqrid/grid.rs:rotate_cw", "src/sqrid/grid.rs:from_iter", "src/sqrid/grid.rs:try_from"]}
{"id": "C117", "title": "How far from optimal a returned path can be", "statement": "Each step q -> r of a path returned by ucs_path satisfies mincost(origin,q) + cost(step) <= mincost(origin,destination), with equality for the last step; so the path costs at most (number of its steps) times the cheapest cost, and this bound cannot be lowered to one step less, for any number of steps from two. Without diagonals, each step q -> r of a path returned by astar_path satisfies dist(origin,q) + 1 + |r - destination|_1 <= dist(origin,destination), with equality for the last step; and the path has fewer steps than there are positions q with dist(origin,q) + |q - destination|_1 <= dist(origin,destination).", "quantifier": "all grids on which the arithmetic of a search fits a usize (every Pos on 64-bit machines), movement functions between neighbours, costs, origins, destinations, map variants and builds", "why_tests_cant": "all movement functions and costs on grids of any size", "anchors": ["src/sqrid/ucs.rs:search_path", "src/sqrid/ucs.rs:UcsIterator", "src/sqrid/astar.rs:search_path", "src/sqrid/astar.rs:AstarIterator"]}
{"id": "C118", "title": "Where in which grid a problem lies does not change the answer", "statement": "If the same movements (and costs, and goals) are moved by a fixed offset, in the same grid or in a grid of any other size that still contains them, then bf_iter yields the same layers with the positions moved, and bfs_path, astar_path and ucs_path return the same result (same directions, destination moved, same error); except that a path longer than the square of the number of columns of its grid is reported as Loop there. For bf_iter any one-to-one renaming of the positions will do. The iterators of A* and of uniform-cost search yield the same items with the positions moved; for uniform-cost search any renaming that keeps the order of the positions will do.", "quantifier": "all pairs of grids on which the arithmetic of a search fits a usize (every Pos on 64-bit machines), offsets, movement functions between neighbours, costs, goals, origins, destinations, collection variants, builds and numbers of steps", "why_tests_cant": "all pairs of grids and all movement functions; ties are broken by comparing coordinates, so that a comparison that is not invariant would show only in some ties", "anchors": ["src/sqrid/bf.rs:bf_iter", "src/sqrid/bf.rs:search_path", "src/sqrid/astar.rs:search_path", "src/sqrid/ucs.rs:search_path", "src/sqrid/mappos.rs:camefrom_into_path"]}
{"id": "C119", "title": "The texts for debugging show everything", "statement": "{:?} and {:#?} write positions, gridbools, grids and iterators in the form of derived Debug (Pos((x, y)), Gridbool([words], PhantomData<..>), PosTIter { cur: .., end: .., p: .. }, and one field per indented line with #). Different positions, directions, errors, gridbools (as compared by ==), grids of elements whose own texts are distinguishable, and iterators in different states have different texts, also when nested in other texts; Sqrid always prints as Sqrid.", "quantifier": "all values, all element types with readable texts, both forms, all names of types", "why_tests_cant": "all values; ambiguity between nested texts shows only in special pairs", "anchors": ["src/sqrid/pos.rs:Pos", "src/sqrid/gridbool.rs:Gridbool", "src/sqrid/grid.rs:Grid", "src/sqrid/base.rs:Sqrid", "src/sqrid/error.rs:Error", "src/sqrid/postrait.rs:PosTIter", "src/sqrid/postrait.rs:PosTIterRange", "src/sqrid/dir.rs:DirIter", "src/sqrid/boundedint.rs:BoundedIntIterator", "src/sqrid/bf.rs:BfIterator", "src/sqrid/astar.rs:AstarIterator", "src/sqrid/ucs.rs:UcsIterator"]}
{"id": "C120", "title": "How often the best-first iterators yield a position", "statement": "On a grid of N cells, with a fixed movement function whose steps lead to neighbours: the A* iterator without diagonals never yields the same item (position and direction) twice, yields no position more than twice and the origin once, and so at most 2N - 1 items; astar_path answers after at most 2N calls to next. The uniform-cost iterator (costs that do not overflow) never yields the same item twice, yields no position more than 4 times (8 with diagonals) and the origin once, and so at most 4(N-1)+1 items (8(N-1)+1); ucs_path answers after at most one call more. If the costs depend only on the position that is entered, it yields no position twice, and so at most N items. Positions yielded 2, 4 and 8 times do occur.", "quantifier": "all grids on which the arithmetic of a search fits a usize (every Pos on 64-bit machines), movement functions, origins, destinations, numbers of calls and map implementations", "why_tests_cant": "all grids and movement functions; the repeated positions depend on ties in the priority queue", "anchors": ["src/sqrid/astar.rs:AstarIterator::next", "src/sqrid/astar.rs:search_path", "src/sqrid/ucs.rs:UcsIterator::next", "src/sqrid/ucs.rs:search_path"]}
{"id": "C121", "title": "The unit in which costs are given does not matter", "statement": "Multiplying all the step costs by the same positive number changes neither the answer of ucs_path (the same path, step by step, or the same error) nor the items of the iterator, with any of the map implementations, provided the sums of the larger costs fit a usize. In particular, when all the steps cost the same, the answer does not depend on how much. With the factor zero, or with sums that do not fit, the answer can change.", "quantifier": "all grids on which the arithmetic of a search fits a usize (every Pos on 64-bit machines), movement functions with costs, factors, origins, destinations, modes, step limits and implementations", "why_tests_cant": "all costs and factors; the order of the queue has to be invariant in every state of every search", "anchors": ["src/sqrid/ucs.rs:UcsIterator::next", "src/sqrid/ucs.rs:search_path", "src/sqrid/ucs.rs:ucs_path"]}
{"id": "C122", "title": "Mirrored and rotated problems have equally good answers", "statement": "Take any symmetry of the plane (shifts, mirrorings, transposition, and what they generate, such as the rotations) that takes a search problem on one grid to a problem on another grid. Then: each layer of bf_iter has the images of the positions of the original layer; bfs_path, and ucs_path with unit costs, find paths of the same length or both none (each within its own limit of the length of paths); astar_path and ucs_path report DestinationUnreachable on both or on neither; the costs of the paths of ucs_path (sums of costs that fit) are the same if the cost of a step depends only on the position it leads to; the lengths of the paths of astar_path without diagonals are the same if some path makes no detour. The lengths of other paths of astar_path, and the costs for other costs, can differ.", "quantifier": "all symmetries, pairs of grids on which the arithmetic of a search fits a usize (every Pos on 64-bit machines), movement functions, origins, goals, modes and implementations", "why_tests_cant": "all grids, movement functions and symmetries; the searches break ties by direction and position, which the symmetries do not keep", "anchors": ["src/sqrid/bf.rs:bf_iter", "src/sqrid/bf.rs:bfs_path", "src/sqrid/astar.rs:astar_path", "src/sqrid/ucs.rs:ucs_path"]}
{"id": "C123", "title": "Grid and Gridbool under any history of writes, flips and rotations", "statement": "After any history of writes, flip_h, flip_v and (on square grids) rotate_cw and rotate_cc, in any order, a Grid reads at every position as the picture obtained by doing the same to a function from positions to values, and a Gridbool that read as a Grid of bool before the history reads as it after the history; none of it panics.", "quantifier": "every position type whose coordinates start at 0 and whose positions can be counted in a usize, all contents and histories", "why_tests_cant": "unboundedly many histories and contents", "anchors": ["src/sqrid/grid.rs:flip_h", "src/sqrid/grid.rs:rotate_cw", "src/sqrid/grid.rs:index_mut", "src/sqrid/gridbool.rs:set", "src/sqrid/gridbool.rs:flip_h", "src/sqrid/gridbool.rs:rotate_cw"]}
{"id": "C124", "title": "Going by way of another position", "statement": "If a search finds a path from a to b and one from b to c, then the two together lead from a to c, and the search from a to c does not report DestinationUnreachable (for ucs_path, provided the sums of the costs fit). bfs_path (for c != a) and ucs_path with unit costs then find a path that is not longer than the two together, or report Loop, and that only if the two together are longer than the square of the number of columns. If the cost of a step of ucs_path depends only on the position it leads to, the path from a to c does not cost more than the two together. The path of astar_path can be longer than the two together.", "quantifier": "all grids on which the arithmetic of a search fits a usize (every Pos on 64-bit machines), movement functions, costs, triples of positions, modes, step limits and implementations", "why_tests_cant": "relates three runs of a search for all movement functions and positions", "anchors": ["src/sqrid/bf.rs:bfs_path", "src/sqrid/astar.rs:astar_path", "src/sqrid/ucs.rs:ucs_path"]}
{"id": "C125", "title": "std's methods on the iterators over positions and bounded integers", "statement": "After any sequence of calls of next, next_back, nth, nth_back, find and rfind on an iterator over all positions (in either orientation) or over a bounded integer type, each call has answered as for the list of all the items, and collect, rev().collect(), count, last, fold and rfold are about exactly the items that are left. iter().nth(i) is the position that tryfrom_usize(i) returns.", "quantifier": "all position types and bounded integer types, orientations, sequences of calls, arguments and closures", "why_tests_cant": "unboundedly many sequences of calls from both ends, with arbitrary arguments and closures", "anchors": ["src/sqrid/postrait.rs:PosTIter", "src/sqrid/postrait.rs:iter", "src/sqrid/boundedint.rs:BoundedIntIterator", "src/sqrid/postrait.rs:tryfrom_usize"]}
{"id": "C126", "title": "Round trips between Grid, Gridbool and their iterators", "statement": "Whatever was done with a Gridbool before, collecting its iter() into a Gridbool and collecting its iter_t() into one give equal Gridbools, which read as the original at every position; clearing the positions of its iter_f() in an all-true Gridbool gives one that reads the same too. Two Gridbools agree at every position exactly if the Gridbools collected from their iter() are equal. A Grid<bool> collected into a Gridbool reads the same at every position, and collecting that one gives the Grid back; a Gridbool collected into a Grid<bool> reads the same.", "quantifier": "every position type whose corner is the origin, every number of words or size that fits, every content of the words (also of the bits of no position)", "why_tests_cant": "The contents are 2^(32*WORDS) many, and bits that belong to no position show only in some histories.", "anchors": ["src/sqrid/gridbool.rs:Gridbool::iter", "src/sqrid/gridbool.rs:Gridbool::iter_t", "src/sqrid/gridbool.rs:Gridbool::iter_f", "src/sqrid/gridbool.rs:Gridbool::set_iter_f", "src/sqrid/gridbool.rs:FromIterator", "src/sqrid/grid.rs:Grid::iter", "src/sqrid/grid.rs:FromIterator"]}
{"id": "C127", "title": "Cheaper steps and more steps", "statement": "When steps of a uniform-cost search get cheaper, steps are added or diagonals are allowed, and the cost of a step depends (after the change) only on the position it leads to, then ucs_path still finds a path if it did before, unless it reports Loop, and the path does not cost more than the one before. With other costs a cheaper step can make the path found dearer, and with A* more movements can make the path found longer.", "quantifier": "all grids on which the arithmetic of a search fits a usize (every Pos on 64-bit machines), pair of cost functions, origin and destination, and every implementation of the maps", "why_tests_cant": "A test compares two searches; the claim is about every pair of cost functions.", "anchors": ["src/sqrid/ucs.rs:ucs_path", "src/sqrid/astar.rs:astar_path"]}
{"id": "C128", "title": "However large the grid, A* looks only near the origin and the destination", "statement": "Let n be the distance from the origin to the destination under a movement function whose steps lead to neighbours. Without diagonals, the A* iterator yields, until it has yielded the destination, only positions q with dist(q) + |q - destination|_1 <= n, and a path returned by astar_path has fewer than (n+1)^2 steps. With diagonals, it yields until then only the origin and positions q with dist(q) + |q - destination|_1 < 2n, the cost it has recorded for q satisfies the same inequality (so that of the destination is less than 2n, which occurs: 3 for n = 2), the positions on a returned path are among these, and if n > 0 the path has fewer than (2n)^2 steps.", "quantifier": "all grids (every PosT type, such as Pos<XMAX,YMAX>, whose coordinates start at 0 and on which the arithmetic of a search fits a usize; every Pos on 64-bit machines), movement functions that lead to neighbours, origins, reachable destinations, numbers of calls of next and map implementations", "why_tests_cant": "all grids and movement functions; the Manhattan distance overestimates diagonal steps, so the usual argument for A* does not apply", "anchors": ["src/sqrid/astar.rs:AstarIterator::next", "src/sqrid/astar.rs:search_path"]}
{"id": "C129", "title": "What the best-first iterators have found when they end", "statement": "However often next is called, the A* iterator (with or without diagonals) yields only positions that can be reached, and at most 2N^2+1 items on a grid of N cells. Once next has returned None it has yielded all of them, the cost recorded for each is its distance from the origin, and the cost of the others is usize::MAX. The same holds for the uniform-cost iterator when the sums of the costs fit, with at most 8N+1 items, for the positions that can be reached for less than usize::MAX and their least costs.", "quantifier": "all grids (every PosT type, such as Pos<XMAX,YMAX>, whose coordinates start at 0 and on which the arithmetic of a search fits a usize; every Pos on 64-bit machines), movement functions that stay in the grid, costs whose sums fit a usize, origins, destinations of A*, both diagonal modes and all map implementations", "why_tests_cant": "all grids and movement functions; with diagonals A* may yield a position with a cost that is not yet the least one and correct it later", "anchors": ["src/sqrid/astar.rs:AstarIterator::next", "src/sqrid/ucs.rs:UcsIterator::next"]}
{"id": "C130", "title": "std's iterator methods on the iterators that go forward only", "statement": "Any sequence of calls of next, nth(n) and find(f), also after the end, on the iterators over a rectangle, a column, a line or the directions, on iter, iter_pos, iter_t and iter_f of a Gridbool, on iter_pos of a Grid and on the breadth-first, A* and uniform-cost iterators answers as on the list of the items that collecting the iterator gives, and after them collect, count, last and every other fold are about the items that are left. The items of the A* iterator cover exactly the reachable positions, those of the uniform-cost iterator exactly the positions that can be reached for less than usize::MAX.", "quantifier": "position types (any for rectangles, columns and lines; coordinates from 0 for grids and searches), rectangles, grids, movement functions that stay in the grid, costs whose sums fit a usize, set and map implementations, and all sequences of calls of next, nth and find with any argument", "why_tests_cant": "all sequences of calls on all grids; the iterators only define next, and std's methods rely on next answering None again after the end", "anchors": ["src/sqrid/postrait.rs:PosTIterRange", "src/sqrid/postrait.rs:PosTIterInX", "src/sqrid/postrait.rs:PosTIterInY", "src/sqrid/dir.rs:DirIter", "src/sqrid/gridbool.rs:Gridbool::iter_t", "src/sqrid/gridbool.rs:Gridbool::iter", "src/sqrid/grid.rs:Grid::iter_pos", "src/sqrid/bf.rs:BfIterator::next", "src/sqrid/astar.rs:AstarIterator::next", "src/sqrid/ucs.rs:UcsIterator::next"]}
{"id": "C131", "title": "Which neighbour each step of a returned path comes from", "statement": "In a path returned by ucs_path, the step to a position r comes from a neighbour q with mincost(origin,q) <= mincost(origin,q') for every neighbour q' that has a step to r with mincost(origin,q') + cost(q' -> r) < mincost(origin,destination), whatever these steps cost; and if the origin is such a neighbour, the step comes from the origin, so the path can pass through r only as its first step. Without diagonals, the same holds for astar_path with dist(origin,q) + |q - destination|_1 instead of the cheapest cost of q and dist(origin,q') + 1 + |r - destination|_1 < dist(origin,destination) as the condition on q'. As a consequence ucs_path can return paths that are many times dearer than the cheapest: on a grid of two lines with a road of k steps that cost W each along the first line it returns the k steps of the road, of cost k*W, while the cheapest way costs W + 2k; so the bound of C117 (number of steps times cheapest cost) cannot be lowered by one step.", "quantifier": "all grids on which the arithmetic of a search fits a usize (every Pos on 64-bit machines), movement functions between neighbours, costs, origins, destinations, map variants and builds; for the road, all lengths k >= 2 and costs W >= 5 for which the sums fit a usize", "why_tests_cant": "all movement functions and costs on grids of any size; the order in which the queue hands out entries for the same position depends on the whole search", "anchors": ["src/sqrid/ucs.rs:UcsIterator", "src/sqrid/ucs.rs:search_path", "src/sqrid/astar.rs:AstarIterator", "src/sqrid/astar.rs:search_path"]}
{"id": "C132", "title": "Sequences of flips and rotations", "statement": "On a Grid, what a sequence of flip_h and flip_v does depends only on whether the number of each is even or odd, in whatever order they come. On a square Grid, what a sequence of flips and rotations does, some number of rotate_cw below four, perhaps followed by flip_h, does too; the number and the flip depend on the sequence alone, and these eight do eight different things to every grid of different values with more than one. flip_h followed by flip_v leaves the values of a Grid as as_mut().reverse() does, and so do two rotate_cw or two rotate_cc of a square Grid. On a Gridbool, what a sequence of flips and rotations does, some number of rotate_cw below four does too, followed by flip_h and by flip_v if the number of those in the sequence is odd, with the same unused bits; a square Gridbool with an odd number of columns needs no more than a square Grid, but with an even number it can need both flips, as two rotate_cw are then not flip_h and flip_v.", "quantifier": "all Pos on which a grid can be built (all square ones for the rotations), contents, sequences of any length and builds", "why_tests_cant": "there are infinitely many sequences, and the operations must fit together on grids of any size and any contents", "anchors": ["src/sqrid/grid.rs:flip_h", "src/sqrid/grid.rs:flip_v", "src/sqrid/grid.rs:rotate_cw", "src/sqrid/grid.rs:rotate_cc", "src/sqrid/grid.rs:as_mut", "src/sqrid/gridbool.rs:flip_h", "src/sqrid/gridbool.rs:flip_v", "src/sqrid/gridbool.rs:rotate_cw", "src/sqrid/gridbool.rs:rotate_cc"]}
{"id": "C133", "title": "How much work a search does depends on how near the destination is", "statement": "However large the grid is, a search for a destination that is near ends soon. If some goal other than the origin is n steps away, breadth-first search answers after at most n layers. If the destination is n steps away, A* answers after at most 2(n+1)^2 calls to next without diagonals and at most (2n)^3 + 1 with them. If every step costs c > 0 or more and the cheapest path to the destination costs less than (m+1)c, uniform-cost search answers after at most 4(2m^2+2m) + 2 calls without diagonals and 8((2m+1)^2 - 1) + 2 with them, a path it returns has at most 2m^2+2m steps without diagonals and fewer than (2m+1)^2 with them, and it does return one if that bound is not more than the square of the number of columns of the grid.", "quantifier": "all Pos a search works on, collections, modes, movement functions to adjacent positions in the grid (with costs that cannot overflow, for uniform-cost search), origins, destinations and builds", "why_tests_cant": "the bounds must hold on grids of any size, for every set of obstacles and costs", "anchors": ["src/sqrid/bf.rs:search_path", "src/sqrid/bf.rs:BfIterator", "src/sqrid/astar.rs:search_path", "src/sqrid/astar.rs:AstarIterator", "src/sqrid/ucs.rs:search_path", "src/sqrid/ucs.rs:UcsIterator", "src/sqrid/mappos.rs:camefrom_into_path"]}
{"id": "C134", "title": "The texts for debugging with format options", "statement": "Width, fill, alignment, sign, zeros, precision and x? or X? make no difference to how Debug writes positions and directions. They apply to every builtin integer inside a text: in decimal it is its sign and its digits, filled up to the width with zeros after the sign or with the fill character on the sides the alignment says, and never cut; with x? and X? it is in hexadecimal, in two's complement if negative, with 0x if # is given. Gridbools with different words have different texts whatever the options, as long as integers are not filled up with characters that integers are made of (it is false then) or with a closing bracket, and so have different integers in decimal and pairs of them.", "quantifier": "all combinations of format options, types of integers, values, gridbools and names of types", "why_tests_cant": "there are infinitely many combinations of options and values, and different values must not collide in any of them", "anchors": ["src/sqrid/gridbool.rs:Gridbool", "src/sqrid/pos.rs:Pos", "src/sqrid/dir.rs:DirIter", "src/sqrid/boundedint.rs:BoundedIntIterator", "src/sqrid/base.rs:Sqrid"]}
{"id": "C135", "title": "How much a search holds in memory", "statement": "After any number of calls to next, with N cells: the breadth-first traversal holds exactly the layer that the next call returns, and the positions yielded and held are all different, so at most N. For A* without diagonals, the items yielded and the entries waiting are together at most 2N - 1; with diagonals, and for any steps that stay in the grid, at most 2N² + 1. For uniform-cost search they are at most 4(N - 1) + 1 without diagonals and 8(N - 1) + 1 with them. Entries overtaken by cheaper ones do stay: uniform-cost search can hold one position once for every direction and nothing else.", "quantifier": "all grid sizes, collections, movement and cost functions, origins, destinations and numbers of calls", "why_tests_cant": "the largest frontier over all mazes, costs and moments of a search cannot be found by running some searches", "anchors": ["src/sqrid/astar.rs:AstarIterator", "src/sqrid/ucs.rs:UcsIterator", "src/sqrid/bf.rs:BfIterator"]}
{"id": "C136", "title": "A returned path leads to positions further and further from the origin, or back by one step", "statement": "Along a path returned by ucs_path, in both modes, the cheapest cost from the origin never decreases from one position to the next, and it increases if every step costs something. Each step of a path returned by astar_path without diagonals leads to a position whose distance from the origin is larger by one, or smaller by one, and in the second case the step leads away from the destination (its Manhattan distance grows by one). So the path is longer than a shortest one by exactly two steps for each step of the second kind. The sum of the distance from the origin and the Manhattan distance to the destination never decreases along such a path; each step leaves it as it is or raises it by two, and the number of the latter is half of what the shortest path is longer than the Manhattan distance.", "quantifier": "all grid sizes, collections, movement functions whose steps lead to neighbours, costs whose sums fit, origins, destinations and steps of the returned path", "why_tests_cant": "it is a claim about every step of every returned path, including those that are not optimal", "anchors": ["src/sqrid/astar.rs:search_path", "src/sqrid/ucs.rs:search_path", "src/sqrid/mappos.rs:camefrom_into_path"]}
{"id": "C137", "title": "Between equally near neighbours, the order of the positions decides; A* can take any number of steps too many", "statement": "If two neighbours of a position on a path returned by astar_path (without diagonals) or ucs_path are equally near for the search (same cost, or same sum of the distance from the origin and the Manhattan distance to the destination), the step does not come from the one that the search reaches later: if a way branches off from a position that every way to the first neighbour goes through, and leads to the second through positions that are nearer, or equally near and greater in the order of the positions, then the path does not come from the first. As a consequence the excess of A* is not bounded: for every k there is a grid with a movement function for which astar_path returns a path of 5k + 6 steps where the shortest has 3k + 6, and a grid with walls, and no other obstacles, on which it returns 7k + 6 steps where the shortest has 5k + 6.", "quantifier": "all grid sizes, collections, movement functions whose steps lead to neighbours, costs whose sums fit, origins, destinations, steps of the returned path, other neighbours and ways to them; all numbers of links and rooms k", "why_tests_cant": "a test shows one path for one grid; the claim relates every step of every returned path to all the ways to the neighbours, and gives a grid for every excess", "anchors": ["src/sqrid/astar.rs:AstarIterator", "src/sqrid/ucs.rs:UcsIterator", "src/sqrid/mappos.rs:camefrom_into_path", "src/sqrid/astar.rs:search_path"]}
{"id": "C138", "title": "A returned path stays away from positions that rank behind another way", "statement": "A position, other than the origin, that no way reaches for less than k, is not on the path returned by ucs_path if there is a way to the destination each of whose positions is reached for less than k, or for k if it is greater in the order of the positions. The same holds for astar_path, with and without diagonals, with the number of steps to a position plus its Manhattan distance to the destination in place of the cost.", "quantifier": "all grid sizes, collections, movement functions whose steps lead to neighbours, costs whose sums fit, origins, destinations, positions, bounds k, and ways to the destination", "why_tests_cant": "a test sees which positions one returned path visits; the claim excludes positions from every path that can be returned, given any way at all to the destination", "anchors": ["src/sqrid/astar.rs:AstarIterator", "src/sqrid/ucs.rs:UcsIterator", "src/sqrid/astar.rs:search_path", "src/sqrid/ucs.rs:search_path"]}
{"id": "C139", "title": "A way on which each position comes first is returned", "statement": "If each position on a way without cycles ranks before everything that other steps from the positions before it lead to, then ucs_path and astar_path (with and without diagonals) return exactly this way, or Loop if it has more steps than the square of the number of columns, after as many calls to next as the way has positions, whatever the grid looks like elsewhere. As a consequence the excess of A* with diagonals is not bounded, also around walls: for every n from 2 there is a grid with walls on which it returns a path of 2n - 2 steps where n suffice.", "quantifier": "all grid sizes, collections, movement functions whose steps lead to neighbours, costs whose sums fit, origins, destinations, and ways without cycles; all sizes n of the staircase", "why_tests_cant": "a test shows the path for one grid; the claim gives the path for every grid with such a way, and a grid for every excess", "anchors": ["src/sqrid/astar.rs:AstarIterator", "src/sqrid/ucs.rs:UcsIterator", "src/sqrid/astar.rs:search_path", "src/sqrid/ucs.rs:search_path"]}
{"id": "C140", "title": "The path of uniform-cost search can be told backwards from the destination", "statement": "If the costs are positive and depend only on the position that is entered, each step of the path that ucs_path returns comes from the cheapest to reach of the neighbours that lead there, and from the greatest of them if there are several. There is only one such path, so this determines the result: it is returned, or if it has more steps than the square of the width of the grid then Err(Loop). More generally, for ucs_path and for astar_path without diagonals, a step to a position, also to the destination, does not come from a neighbour if another one is on a best way to the position, and is reached earlier: by a way from a position that every way to the first one goes through, all of whose positions rank before it.", "quantifier": "all grid sizes, collections, movement functions whose steps lead to neighbours, costs whose sums fit, origins, destinations, steps of the returned path, other neighbours and ways to them", "why_tests_cant": "a test compares one returned path with one expected one; the claim fixes each step of every returned path by the costs of all the neighbours", "anchors": ["src/sqrid/ucs.rs:UcsIterator", "src/sqrid/ucs.rs:search_path", "src/sqrid/astar.rs:AstarIterator", "src/sqrid/mappos.rs:camefrom_into_path"]}
{"id": "C141", "title": "A* and uniform-cost search take the same way with one bend", "statement": "Without diagonals, if the way that goes first east and then north or south, or first north or south and then west, is free, then astar_path, and ucs_path with costs of 1, return exactly this way, or Loop if it has more steps than the square of the number of columns, whatever the grid looks like elsewhere. In a grid without walls this is the path from everywhere to everywhere.", "quantifier": "all grid sizes, collections, movement functions whose steps lead to neighbours, origins and destinations for which the way is free", "why_tests_cant": "there are exponentially many shortest paths between two positions; a test pins the choice for one pair in one grid, the claim for every pair in every grid in which the way is free", "anchors": ["src/sqrid/astar.rs:AstarIterator", "src/sqrid/ucs.rs:UcsIterator", "src/sqrid/astar.rs:search_path", "src/sqrid/ucs.rs:search_path"]}
{"id": "C142", "title": "Breadth-first search returns the first of the shortest paths in the order of a dictionary", "statement": "Of all shortest paths from the origin to the nearest goals other than the origin, bfs_path returns the first one in the order of a dictionary in which the directions are sorted clockwise from north. So any other path to any goal is longer, or of the same length and after it in this order.", "quantifier": "all grid sizes, collections, with and without diagonals, movement functions whose steps lead to neighbours, origins, sets of goals, and other paths to any of the goals", "why_tests_cant": "a test compares the returned path with one expected path; the claim compares it with every path to every goal", "anchors": ["src/sqrid/bf.rs:BfIterator", "src/sqrid/bf.rs:search_path", "src/sqrid/mappos.rs:camefrom_into_path", "src/sqrid/dir.rs:Dir"]}
{"id": "C143", "title": "Breadth-first search goes north, east, south, west, in this order", "statement": "Without diagonals, if the way that goes first north, then east, then south, then west, each as far as needed, is free, then bfs_path for this destination returns exactly this way, or Loop if it has more steps than the square of the number of columns, whatever the grid looks like elsewhere. In a grid without walls this is the path from everywhere to everywhere else; it is the one of astar_path and ucs_path (C141) except to the north east, where these go east first.", "quantifier": "all grid sizes, collections, movement functions whose steps lead to neighbours, origins and other destinations for which the way is free", "why_tests_cant": "there are exponentially many shortest paths between two positions; a test pins the choice for one pair in one grid, the claim for every pair in every grid in which the way is free", "anchors": ["src/sqrid/bf.rs:BfIterator", "src/sqrid/bf.rs:search_path", "src/sqrid/mappos.rs:camefrom_into_path"]}
{"id": "C144", "title": "With diagonals breadth-first search goes off sideways and comes back", "statement": "With diagonals, bfs_path for a position to the north goes first straight north, then diagonally. To the east it goes first north east, as far as the number of steps and the edge of the grid allow, then straight east, then back south east; in the same way to the south, where it begins to the south east, and to the west, where it begins to the south west. It returns exactly this way whenever it is free, or Loop if it has more steps than the square of the number of columns; in a grid without walls it is the path from everywhere to everywhere else. So the way to a position 2n columns to the east in the same row goes n rows up and down again, if there are as many.", "quantifier": "all grid sizes, collections, movement functions whose steps lead to neighbours, origins and other destinations for which the way is free; all n", "why_tests_cant": "there are exponentially many shortest paths between two positions; a test pins the choice for one pair in one grid, the claim for every pair in every grid in which the way is free", "anchors": ["src/sqrid/bf.rs:BfIterator", "src/sqrid/bf.rs:search_path", "src/sqrid/mappos.rs:camefrom_into_path"]}
{"id": "C145", "title": "With diagonals uniform-cost search goes off sideways too, in another way", "statement": "With diagonals and costs of 1, ucs_path goes, to the east and to the west, first to the south, as far as the number of steps and the edge of the grid allow, then straight, then back to the north; to the north and to the south first to the east, then straight, then back to the west. It returns exactly this way whenever it is free, or Loop if it has more steps than the square of the number of columns; in a grid without walls it is the path from everywhere to everywhere.", "quantifier": "all grid sizes, collections, movement functions whose steps lead to neighbours, origins and destinations for which the way is free", "why_tests_cant": "there are exponentially many shortest paths between two positions; a test pins the choice for one pair in one grid, the claim for every pair in every grid in which the way is free", "anchors": ["src/sqrid/ucs.rs:UcsIterator", "src/sqrid/ucs.rs:search_path", "src/sqrid/mappos.rs:camefrom_into_path"]}
{"id": "C146", "title": "The parts of a returned path are what the searches return for them", "statement": "From any position on the path returned by bfs_path, before its end, bfs_path to the same goals returns the rest of the path, if the origin was not itself a goal; and from the origin to any later position on the path it returns the path up to there. The same holds for ucs_path with costs of 1, and with positive costs that depend only on the position entered if their sums fit. It does not hold for astar_path, with or without diagonals: there are grids in which it returns a different path from a position on the path, and to one.", "quantifier": "all grid sizes, collections (which may differ between the two calls), with and without diagonals, movement functions whose steps lead to neighbours, origins, goals, and ways to cut the returned path in two", "why_tests_cant": "a test cuts one path at a few positions; the claim holds for every cut of every path around any walls", "anchors": ["src/sqrid/bf.rs:search_path", "src/sqrid/ucs.rs:search_path", "src/sqrid/astar.rs:search_path", "src/sqrid/mappos.rs:camefrom_into_path"]}
{"id": "C147", "title": "Closing other ways does not change a returned path", "statement": "If some steps are closed that are not on the path returned by bfs_path, and some goals dropped other than the one it leads to, bfs_path returns the same path again. The same holds for ucs_path with costs of 1, and with positive costs that depend only on the position entered, of which some that are not on the path may also be raised, if their sums still fit. It does not hold for astar_path: there are grids in which closing a position that is not on the path changes the path, and even, with diagonals, makes it shorter.", "quantifier": "all grid sizes, collections (which may differ between the two calls), with and without diagonals, movement functions whose steps lead to neighbours, sets of closed steps, origins and goals", "why_tests_cant": "a test closes a few positions in one grid; the claim holds for every set of closed steps in every grid", "anchors": ["src/sqrid/bf.rs:search_path", "src/sqrid/ucs.rs:search_path", "src/sqrid/astar.rs:search_path"]}
{"id": "C148", "title": "Calculating the path anew before each step leads along the same path, but not with A*, nor with costs that depend on both ends of a step", "statement": "Somebody who calls bfs_path, or ucs_path with costs of 1, from where they are before each step, and takes the first step of the path, goes exactly along the path that was returned at first; so does somebody who calls ucs_path with positive costs that depend only on the position entered, if their sums fit from wherever they start. With costs that depend on both ends of a step this does not hold: if each step costs one plus the difference in height, there is a landscape, both with and without diagonals, in which somebody who calls ucs_path before each step goes back and forth between two positions for ever, although there is a path to the destination. With astar_path it does not hold either: without diagonals there is a grid in which they are not there after as many steps as the first path has, and with diagonals there is one in which they go back and forth between two positions for ever, although astar_path returns a path to the destination each time.", "quantifier": "all grid sizes, collections, with and without diagonals, movement functions whose steps lead to neighbours, origins, goals, and numbers of steps", "why_tests_cant": "the number of steps of the walk is unbounded, and each depends on a search over the whole grid; a walk that goes back and forth for ever cannot be told from a long one by running it", "anchors": ["src/sqrid/bf.rs:search_path", "src/sqrid/ucs.rs:search_path", "src/sqrid/astar.rs:search_path"]}
{"id": "C149", "title": "One traversal from each position not seen before finds the areas", "statement": "A program goes through all free positions, such as those of Pos::iter() that are not walls; from each one that is not in a set of those seen it starts a bf_iter, takes the position and all those that it yields for an area, and inserts them in the set. If each step from a free position leads to a free position and can be taken back, as it is with walls, then the areas divide up the grid: every free position is in exactly one area, once, and two positions are in the same area exactly if one can be reached from the other.", "quantifier": "all grid sizes, sets (every SetPos implementation) and variants of the iterator, with and without diagonals, walls or movement functions whose steps lead to neighbours, and lists of positions to start from", "why_tests_cant": "a test finds the areas of a few pictures; the claim holds for all arrangements of walls, and combines the positions iterator, the sets and the traversal over a history of any number of traversals", "anchors": ["src/sqrid/bf.rs:bf_iter", "src/sqrid/bf.rs:BfIterator", "src/sqrid/setpos.rs:SetPos", "src/sqrid/postrait.rs:PosTIter"]}
{"id": "C150", "title": "One traversal gives the paths to all destinations", "statement": "A program goes through an iterator once, keeps the direction that comes with each position in a map (any MapPos implementation), and later passes the map to camefrom_into_path. With bf_iter, the result for a destination is that of a breadth-first search for it, also the errors, and for any goal function bfs_path returns the result for the goal that comes first in the traversal. With the iterator UcsIterator and costs that depend only on the position that is entered, the result for every destination is that of ucs_path. With other costs this fails if the program lets a later direction of a position replace an earlier one; if it keeps the first one, it gets a cheapest path to every position that can be reached for less than usize::MAX (Error::Loop if that path has more steps than the square of the width, DestinationUnreachable for the other positions). Keeping the first directions of an AstarIterator without diagonals in the same way gives a shortest path to every position that can be reached, not only to the destination of the iterator.", "quantifier": "all grid sizes, origins, destinations and goal functions, map implementations and variants of the iterators and searches, movement functions whose steps lead to neighbours, costs whose sums fit a usize, with and without diagonals (A*: without)", "why_tests_cant": "a test compares a few destinations in a few grids; the claim is about all destinations of one traversal, and relates the history of an iterator that is run to its end with searches that stop early", "anchors": ["src/sqrid/mappos.rs:camefrom_into_path", "src/sqrid/bf.rs:bf_iter", "src/sqrid/bf.rs:bfs_path", "src/sqrid/ucs.rs:UcsIterator", "src/sqrid/ucs.rs:ucs_path", "src/sqrid/astar.rs:AstarIterator", "src/sqrid/mappos.rs:MapPos"]}
{"id": "C151", "title": "The first goal of uniform-cost iteration is a cheapest one", "statement": "A program looks for the cheapest of several goals, which ucs_path cannot do: it goes through a UcsIterator, keeps the first direction of each position in a map (any MapPos implementation), ends at the first position that is a goal, and passes the map and that goal to camefrom_into_path. If no goal can be reached for less than usize::MAX, the iterator ends without one. Otherwise the program gets a goal that costs no more than any other and a cheapest path to it, or Error::Loop if that path has more steps than the square of the width.", "quantifier": "all grid sizes, origins, sets of goals, map implementations, variants of the iterator, movement functions whose steps lead to neighbours, costs whose sums fit a usize, with and without diagonals", "why_tests_cant": "a test has a few goals in a few grids; the claim compares the path with all paths to all goals", "anchors": ["src/sqrid/ucs.rs:UcsIterator", "src/sqrid/mappos.rs:camefrom_into_path", "src/sqrid/mappos.rs:MapPos"]}
{"id": "C152", "title": "A map of the layers of a traversal shows the way from everywhere", "statement": "A program makes a map (any MapPos implementation) with usize::MAX everywhere, sets the origin to 0, and sets the positions of the layers that bf_iter yields to 1, 2, 3 and so on. Then the map has the distance of each position that can be reached, and usize::MAX for the others. If each step can be taken back, it shows the way to the origin from everywhere: always taking the first step of Dir::iter that leads to a smaller number ends at the origin after as many steps as the distance, and no path from that position to the origin is shorter; from a free position that cannot be reached no step leads to a smaller number.", "quantifier": "all grid sizes, origins, positions, map implementations and variants of bf_iter, movement functions whose steps lead to neighbours, with and without diagonals (for the way down: whose steps between free positions can be taken back)", "why_tests_cant": "a test follows the way from a few positions in a few grids; the claim is about the ways from all positions in all grids, and compares them with all paths", "anchors": ["src/sqrid/bf.rs:bf_iter", "src/sqrid/mappos.rs:MapPos", "src/sqrid/dir.rs:Dir"]}
{"id": "C153", "title": "The positions around a position, and counting around positions", "statement": "Adding each direction of Dir::iter to a position and keeping the results that are in the grid gives the positions at Manhattan distance 1 (without diagonals) or at Chebyshev distance 1 (with them), each once and clockwise from north; direction_to tells the direction of each. In a grid with two or more columns and lines there are 2 or 3 of them (without or with diagonals) where is_corner holds, 3 or 5 where only is_side holds, and 4 or 8 elsewhere; in any grid, where a columns and b lines of the grid are at most one away from the position, there are a + b - 2 without diagonals and a * b - 1 with them. A program that starts with zeroes in a map (any MapPos implementation) and, for each position of a list without repetitions (such as iter_t of a Gridbool), adds one to each position around it, has in the end for each position of the grid the number of positions of the list around it.", "quantifier": "all position types (counting: all with coordinates from 0 on which grids work), positions, lists of positions, map implementations and modes", "why_tests_cant": "a test counts around a few positions of a few grids; the claim is about every position of every grid, at every border, and about all lists", "anchors": ["src/sqrid/dir.rs:Dir", "src/sqrid/posdir.rs:pos_dir_add_ok", "src/sqrid/posdir.rs:direction_to", "src/sqrid/postrait.rs:PosT", "src/sqrid/mappos.rs:MapPos"]}
{"id": "C154", "title": "The smallest rectangle around some positions, and going through it", "statement": "A position is inside the two corners that tlbr_of returns if and only if it is inside every pair of corners that all the items are inside of. Neither the order of the items nor repetitions change the corners, and the corners of two sequences together are those of their four corners. Going through iter_range of the two corners gives each position inside them once, in reading order; except that the lower right corner is left out, even if it is an item, if it is on the last line of the grid but not in the last column. Passing the result to tlbr_of again gives the same corners, unless the corner was left out of a box of one line or one column: then the last column or line is missing, and a box of one position gives Err(Empty).", "quantifier": "all position types, all finite sequences of positions of the grid", "why_tests_cant": "the corner is lost only for boxes that touch one border and not the other; the claim is about every set of positions in grids of every size", "anchors": ["src/sqrid/postrait.rs:tlbr_of", "src/sqrid/postrait.rs:inside", "src/sqrid/postrait.rs:PosTIterRange"]}
{"id": "C155", "title": "Cellular automata on a Gridbool", "statement": "A program that counts around the positions of iter_t of a Gridbool with a map (any MapPos implementation), as in C153, then goes through P::iter() and collects into a new Gridbool the positions for which a rule holds of the old value and the number, as for Conway's game of life, has after any number of such steps at each position exactly what the automaton says: each step applies the rule to the value before and to the number of positions of the grid next to it that were true before. It never panics.", "quantifier": "all grids (every PosT type whose coordinates start at 0 and whose positions can be counted in a usize) with enough WORDS, contents, rules, map implementations, with and without diagonals, and numbers of steps", "why_tests_cant": "a test follows a few patterns for a few steps; the claim is about all contents, rules and grids, after any number of steps", "anchors": ["src/sqrid/gridbool.rs:Gridbool", "src/sqrid/dir.rs:Dir", "src/sqrid/posdir.rs:pos_dir_add_ok", "src/sqrid/mappos.rs:MapPos", "src/sqrid/postrait.rs:PosT"]}
{"id": "C156", "title": "A path as a text", "statement": "path.iter().map(Dir::name_utf8).collect::<String>(), and the same with name_ascii, has one character per step, and text.chars().map(Dir::try_from).collect::<Result<Vec<Dir>, _>>() reads it back as the same path. A text reads as a path exactly if its characters are spellings of the directions of the path, one for each; if some character is no spelling, it is Err(DirParseError). The text of the letters of Display is read as the same path exactly if there are no diagonals: a diagonal is read as two steps along the axes, so that NE stands for two paths, but the path that is read leads to the same position in the grid. Read word by word with parse, letters give Err(DirParseError) if there are diagonals, arrows and symbols always the path.", "quantifier": "all paths (lists of directions), texts, positions and grids", "why_tests_cant": "a test writes a few paths; the claim is about all paths and all texts", "anchors": ["src/sqrid/dir.rs:Dir", "src/sqrid/posdir.rs:pos_dir_add_ok"]}
{"id": "C157", "title": "A map as a text", "statement": "text.chars().filter(|c| \"#.\".contains(*c)).map(|c| c == '#').collect::<Gridbool>() gives, if the text has as many marks # and . as the grid has positions, a Gridbool that is true where the mark is #, mark after mark in reading order, so that in a text with as many lines as the grid, and as many marks in each line as columns, the mark x of the line y is that of (x, y). With any other number of marks it panics. The text that Display prints for a Gridbool, with the labels of lines and columns, is read back as one with the same values, whatever the format options, unless the precision is 0 or the cells are filled up with # or . (then it can panic).", "quantifier": "all grids (every PosT type whose coordinates start at 0 and whose positions can be counted in a usize) with enough WORDS, texts, contents and format options", "why_tests_cant": "a test reads a few maps; the claim is about all texts, sizes, contents and format options", "anchors": ["src/sqrid/gridbool.rs:Gridbool", "src/sqrid/grid.rs:display_fmt_helper"]}
{"id": "C158", "title": "Where one can be after an exact number of steps", "statement": "Without diagonals, all ways between two positions have an even number of steps or all have an odd number, as the Manhattan distance, so the paths of A* and of uniform-cost searches, whatever the costs, are longer than those of breadth-first searches by an even number of steps, if at all; with diagonals no way has fewer steps than the Chebyshev distance. A program that takes the origin if n is even, and the layers of bf_iter (without diagonals) up to the distance n whose distance is even or odd as n is, gets each position where one can be after exactly n steps, once, and no other, if steps can be taken back and the origin has some step. In a grid without walls these are the positions with a Manhattan distance of at most n that is even or odd as n is; with diagonals, in a grid with at least two columns and two lines, those with a Chebyshev distance of at most n, except the origin for n = 1.", "quantifier": "all grids, movement functions to neighbours, origins, numbers of steps and kinds of bf_iter", "why_tests_cant": "a test follows some walks; the claim is about all walks of all lengths, of which there are infinitely many", "anchors": ["src/sqrid/bf.rs:BfIterator", "src/sqrid/pos.rs:Pos", "src/sqrid/dir.rs:Dir", "src/sqrid/astar.rs:search_path", "src/sqrid/ucs.rs:search_path"]}
{"id": "C159", "title": "Which wall cuts off the destination", "statement": "Given a list of walls that are put up one after the other, bisection over their number, with a search each time and the question whether it returns Err(DestinationUnreachable), finds the least number of walls with which the destination cannot be reached, or one more than there are if it always can; with breadth-first search (if the destination is not the origin), A* or uniform-cost search with any costs whose sums cannot overflow, in grids of every shape, with and without diagonals, and with at most as many searches as the number of walls, plus one, has binary digits. Asking for any error instead gives a wrong answer in some grids that are taller than wide. Putting up the walls one by one, and searching anew only if a wall is on the path at hand, finds the same number in grids that are not taller than wide (with bfs_path, and with astar_path without diagonals).", "quantifier": "all grids, lists of walls, origins and destinations, costs, variants of the searches", "why_tests_cant": "a test tries some lists of walls; that bisection may skip most of them depends on a monotonicity over all lists, and on the searches being right about each", "anchors": ["src/sqrid/bf.rs:search_path", "src/sqrid/astar.rs:search_path", "src/sqrid/ucs.rs:search_path", "src/sqrid/error.rs:Error"]}
{"id": "C160", "title": "A shortest way past several positions", "statement": "A program that tries every order of some positions, and joins the paths of bfs_path from each to the next (and the empty path from a position to itself), returns a way past all of them that no other way past all of them, in whatever order and with whatever detours, is shorter than; if it returns none there is no such way. This holds in grids that are not taller than wide, and in general with every search that returns shortest paths. Going to the nearest of the positions again and again, with a predicate for those that are left, does not always give a shortest way.", "quantifier": "all grids not taller than wide, movement functions to neighbours, origins, lists of positions (also with repetitions), variants of bfs_path, with and without diagonals", "why_tests_cant": "a test compares with ways found by another program for a few inputs; the claim is about all ways, of which there are infinitely many", "anchors": ["src/sqrid/bf.rs:search_path", "src/sqrid/bf.rs:bfs_path"]}
{"id": "C161", "title": "How many shortest paths there are", "statement": "A program that goes through the layers of bf_iter, and takes for each position of a layer the sum of the numbers of the positions of the layer before, each as often as a step leads from there to here, starting with 1 for the origin, finds for each position that can be reached how many shortest paths lead there, exactly. In a grid without walls and without diagonals that is a binomial coefficient, of the Manhattan distance and the difference of the columns.", "quantifier": "all grids, movement functions to neighbours, origins, kinds of bf_iter, with and without diagonals; numbers without bound", "why_tests_cant": "a test compares some numbers; the claim is about all grids and movement functions, and the numbers grow exponentially", "anchors": ["src/sqrid/bf.rs:BfIterator", "src/sqrid/bf.rs:bf_iter", "src/sqrid/dir.rs:Dir"]}
{"id": "C162", "title": "Traversals from both ends", "statement": "If steps can be taken back, the positions whose distances from a and from b, read off the layers of a bf_iter from each, add up to the distance between a and b are exactly those that some shortest path from a to b comes past. The same two traversals, around walls, tell how long the shortest paths would be if one of the walls were not there: the least of the old distance and, over all pairs of positions beside the wall, the distance from a to the one, plus 2, plus the distance from the other to b; and if there is no such number there would be no path.", "quantifier": "all grids, movement functions to neighbours whose steps can be taken back, walls, ends, kinds of bf_iter, with and without diagonals", "why_tests_cant": "a test compares with a few other searches; the claim is about all shortest paths of all grids", "anchors": ["src/sqrid/bf.rs:BfIterator", "src/sqrid/bf.rs:bf_iter"]}
{"id": "C163", "title": "The positions that all ways lead through", "statement": "Given any path from an origin to another position, searching again with each position that the path enters as one more wall, and keeping those for which the search answers DestinationUnreachable, gives exactly the positions that every path from the origin to the destination enters. This holds for bfs_path and for A*, although neither always finds the shortest path or any particular one.", "quantifier": "all grids, walls, pairs of positions, paths, kinds of the search, with and without diagonals", "why_tests_cant": "a test tries a few mazes; the claim is about all paths of all mazes", "anchors": ["src/sqrid/bf.rs:bfs_path", "src/sqrid/astar.rs:search_path", "src/sqrid/error.rs:Error"]}
{"id": "C164", "title": "Running sums", "statement": "A program that goes once through all positions of a grid, line by line or column by column, and sets each to its own number plus the results to the west and to the north minus the result to the north-west, counting positions outside the grid as zero, has at each position the sum over the rectangle from the top left corner of the grid to there. From that, for any two corners, the result at the bottom right corner, minus the one to the west of the bottom left, minus the one to the north of the top right, plus the one to the north-west of the top left, is the sum over the rectangle between the corners. It does not matter which map keeps the results, nor whether the numbers wrap around.", "quantifier": "all grids, rectangles, numbers of all types with the usual laws of addition, kinds of map and both orders of iteration", "why_tests_cant": "a test checks a few rectangles; an iteration that comes to a position before one to the west or north of it, or an addition of a direction that is wrong at one side, shows only in some of them", "anchors": ["src/sqrid/postrait.rs:PosTIter", "src/sqrid/posdir.rs:pos_dir_add_ok", "src/sqrid/mappos.rs:MapPos"]}
{"id": "C165", "title": "Looking along a direction", "statement": "Adding a direction to a position again and again, as long as the result is Ok, yields the positions at distances 0, 1, 2, ... in that direction, in this order, ends at the edge of the grid, and leaves out none that is inside. One position is seen from another in a direction if and only if the other is seen from it in the flipped direction. A program that looks along every direction of Dir::iter from every position of P::iter, and compares as many items of a Grid as a word has letters, finds each place and direction in which the word stands exactly once and nothing else: no word continues around the edge on the next line, and none that ends at the edge is missed.", "quantifier": "all grids, positions, directions, contents and words, with and without diagonals; the looking in every position type, signed or not", "why_tests_cant": "a test looks for a few words in a few grids; a word that continues on the next line or ends at an edge must be in the sample for a mistake to show", "anchors": ["src/sqrid/posdir.rs:Add", "src/sqrid/dir.rs:iter", "src/sqrid/dir.rs:flip", "src/sqrid/postrait.rs:PosTIter", "src/sqrid/grid.rs:get"]}
{"id": "C166", "title": "A guard who turns right before walls", "statement": "A guard walks straight on through a grid, adds E to their direction, without moving, when the next position is a wall, and is gone when adding the direction to the position gives OutOfBounds. A program that follows the guard for four steps for each position of the grid and inserts the positions into a set can tell: if the guard is gone by then, the set has exactly the positions that the guard ever comes to, and otherwise the guard never leaves. One more wall can keep a guard in the grid who would leave only if it is put at a position of that set.", "quantifier": "all grids, walls, positions and directions of the guard, straight or diagonal, and kinds of set", "why_tests_cant": "that a guard never leaves is a claim about infinitely many steps, and that other walls do not matter is one about all positions", "anchors": ["src/sqrid/posdir.rs:Add", "src/sqrid/dir.rs:rotate", "src/sqrid/setpos.rs:SetPos"]}
{"id": "C167", "title": "Searching a grid whose opposite edges are joined", "statement": "With a movement function that comes back in at the opposite edge when a step leads out of a grid of at least two rows and columns, layer k of bf_iter has exactly the positions at distance k + 1, each once, where the distance is in each axis the shorter way round, and the sum of both without diagonals or the greater one with them. bfs_path with such a movement function, with walls, gives DestinationUnreachable if no path leads to another position. Otherwise any path it returns is a shortest one and does not go past an edge. If all paths that stay within the edges are longer than the shortest one, and that has at most the square of the number of columns, then it gives InvalidMovement.", "quantifier": "all grids, both modes, origins, destinations, lists of walls, and the three kinds of set and map of the searches", "why_tests_cant": "the distances and the error are claims about all paths in all grids, not about the runs of a few", "anchors": ["src/sqrid/bf.rs:bf_iter", "src/sqrid/bf.rs:search_path", "src/sqrid/mappos.rs:camefrom_into_path"]}
{"id": "C168", "title": "The arrays of all directions", "statement": "Dir::ALL8 has each direction once, at the index that casting it to usize gives, and Dir::ALL4 has each direction that is not a diagonal once, and no other. Dir::iter yields the items of these arrays in their order. In both, the item after each one, and the first after the last, is that one rotated by NE or by E, and the item half the length further on is the flipped one. Adding the items of ALL4 or ALL8 to a position and keeping what is Ok gives the positions at Manhattan or Chebyshev distance 1, each once.", "quantifier": "all directions, indexes, grids and positions", "why_tests_cant": "the last part is about every position of every grid, at edges and corners too", "anchors": ["src/sqrid/dir.rs:ALL8", "src/sqrid/dir.rs:ALL4", "src/sqrid/dir.rs:DirIter", "src/sqrid/posdir.rs:pos_dir_add_ok"]}
