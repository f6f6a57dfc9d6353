{
 "claims": [
  {
   "property": "C01",
   "status": "proved",
   "theorems": [
    "Sqrid.C01_try_from_exact",
    "Sqrid.C01_new_exact",
    "Sqrid.C01_new_unwrap_exact",
    "Sqrid.C01_builtin_bounds"
   ],
   "note": "All listed theorems hold for every input they quantify over."
  },
  {
   "property": "C02",
   "status": "proved",
   "theorems": [
    "Sqrid.C02_checked_add_exact",
    "Sqrid.C02_checked_sub_exact",
    "Sqrid.C02_inc_dec_exact"
   ],
   "note": "All listed theorems hold for every input they quantify over."
  },
  {
   "property": "C03",
   "status": "partial",
   "theorems": [
    "Sqrid.C03_bounds_refuted",
    "Sqrid.C03_from_bool_refuted",
    "Sqrid.C03_bounds_partial"
   ],
   "note": "The full statement is false of the code. [C03_bounds_refuted] C03 is violated: `BoundedU16::<5, 10>::default()` holds 0. [C03_from_bool_refuted] C03 is violated by `From<bool>` even for a zero-based type: `BoundedU16::<0, 0>::from(true)` holds 1. [C03_bounds_partial] C03, partial: `Default` is in bounds exactly when 0 is, and `From<bool>` exactly when the converted value (0 or 1) is. Missing: the bounds check that would make it hold for every type."
  },
  {
   "property": "C04",
   "status": "proved",
   "theorems": [
    "Sqrid.C04_iter_double_ended"
   ],
   "note": "All listed theorems hold for every input they quantify over."
  },
  {
   "property": "C05",
   "status": "proved",
   "theorems": [
    "Sqrid.C05_pos_new_exact",
    "Sqrid.C05_pos_new_unwrap_exact",
    "Sqrid.C05_pos_constants"
   ],
   "note": "All listed theorems hold for every input they quantify over."
  },
  {
   "property": "C06",
   "status": "partial",
   "theorems": [
    "Sqrid.C06_try_from_i32_refuted",
    "Sqrid.C06_negative_accepted",
    "Sqrid.C06_try_from_i32_modulo",
    "Sqrid.C06_try_from_i32_partial"
   ],
   "note": "The full statement is false of the code. [C06_try_from_i32_refuted] C06 is violated: `Pos::<4,4>::try_from((65536, 65538))` is `Ok((0, 2))`, because of the `as u16` casts. [C06_try_from_i32_partial] C06, partial: the statement holds when the coordinates are in 0..=65535 (or, more generally, negative values not smaller than XMAX-65535). Missing: coordinates that differ from a valid one by a multiple of 65536."
  },
  {
   "property": "C07",
   "status": "proved",
   "theorems": [
    "Sqrid.C07_to_usize",
    "Sqrid.C07_from_to_usize",
    "Sqrid.C07_to_from_usize",
    "Sqrid.C07_to_usize_injective"
   ],
   "note": "All listed theorems hold for every input they quantify over."
  },
  {
   "property": "C08",
   "status": "proved",
   "theorems": [
    "Sqrid.C08_next",
    "Sqrid.C08_prev",
    "Sqrid.C08_next_y",
    "Sqrid.C08_prev_y"
   ],
   "note": "All listed theorems hold for every input they quantify over."
  },
  {
   "property": "C09",
   "status": "proved",
   "theorems": [
    "Sqrid.C09_iter_collect",
    "Sqrid.C09_iter_each_once",
    "Sqrid.C09_iter_call_order"
   ],
   "note": "All listed theorems hold for every input they quantify over."
  },
  {
   "property": "C10",
   "status": "proved",
   "theorems": [
    "Sqrid.C10_iter_double_ended"
   ],
   "note": "All listed theorems hold for every input they quantify over."
  },
  {
   "property": "C11",
   "status": "partial",
   "theorems": [
    "Sqrid.C11_iter_hint_exact",
    "Sqrid.C11_size_hint_refuted",
    "Sqrid.C11_size_hint_partial",
    "Sqrid.C11_range_hint_exact",
    "Sqrid.C11_in_x_hint_exact",
    "Sqrid.C11_in_y_hint_exact",
    "Sqrid.C11_dir_hint_exact",
    "Sqrid.C11_others_refuted"
   ],
   "note": "The full statement is false of the code. [C11_size_hint_refuted] C11 is violated as soon as one item has been taken. [C11_others_refuted] C11 is violated by each of the other iterators too, on every grid and for every range, column and line. [C11_size_hint_partial] C11, partial. Right after creation the hint of `iter()` is exact, and at every later point the upper bound is sound. Missing: the lower bound after the first call (see `C11_iter_hint_exact`)."
  },
  {
   "property": "C12",
   "status": "partial",
   "theorems": [
    "Sqrid.C12_iter_range_refuted",
    "Sqrid.C12_iter_range_partial",
    "Sqrid.C12_iter_range_lost",
    "Sqrid.C12_inverted_x",
    "Sqrid.C12_inverted_y",
    "Sqrid.C12_rect_spec"
   ],
   "note": "The full statement is false of the code. [C12_iter_range_refuted] C12 is violated: on `Pos<2, 1>`, the range (0,0)..(1,1) loses its bottom-right position (1,1). [C12_iter_range_partial] C12, partial: the statement holds when the range does not end on the last line, or when it extends to the last column. Missing: ranges that end on the last line but before the last column, see `C12_iter_range_lost`."
  },
  {
   "property": "C13",
   "status": "partial",
   "theorems": [
    "Sqrid.C13_iter_in_x_partial",
    "Sqrid.C13_iter_in_y_partial",
    "Sqrid.C13_iter_in_x_exact",
    "Sqrid.C13_iter_in_y_exact",
    "Sqrid.C13_refuted_iff_nonzero",
    "Sqrid.C13_refuted"
   ],
   "note": "The full statement is false of the code. [C13_refuted_iff_nonzero] C13 fails on every type whose lines do not start at 0: the iterator begins with `(x, 0)`, which is either not the first position of the column or not a position at all. [C13_refuted] C13 does not hold of every type: `<(i8, i8)>::iter_in_x(x)` starts at line 0, not at line -128. [C13_iter_in_x_partial] C13, partial. On a zero-based type, `iter_in_x(x)` visits exactly the column `x`, top to bottom. Missing: types that do not start at 0, see `C13_iter_in_x_exact`. [C13_iter_in_y_partial] C13, partial. On a zero-based type, `iter_in_y(y)` visits exactly the line `y`, left to right. Missing: types that do not start at 0, see `C13_iter_in_y_exact`."
  },
  {
   "property": "C14",
   "status": "proved",
   "theorems": [
    "Sqrid.C14_tlbr_of",
    "Sqrid.C14_tlbr_in_grid"
   ],
   "note": "All listed theorems hold for every input they quantify over."
  },
  {
   "property": "C15",
   "status": "partial",
   "theorems": [
    "Sqrid.C15_refuted",
    "Sqrid.C15_manhattan_exact",
    "Sqrid.C15_manhattan_fits",
    "Sqrid.C15_manhattan_partial",
    "Sqrid.C15_metric_partial"
   ],
   "note": "The full statement is false of the code. [C15_refuted] C15 is false: `(i8, i8)` positions far apart overflow the type of the coordinates. [C15_manhattan_partial] C15, proved part: in the types with coordinates from 0 and dimensions that fit in `usize` (every `Pos<XMAX, YMAX>`, `(u8, u8)`, `(u16, u16)`), `manhattan` never panics and is the L1 distance. Missing: the other types, see `C15_manhattan_exact`. [C15_metric_partial] C15, proved part: metric laws of `manhattan`."
  },
  {
   "property": "C16",
   "status": "proved",
   "theorems": [
    "Sqrid.C16_inside"
   ],
   "note": "All listed theorems hold for every input they quantify over."
  },
  {
   "property": "C17",
   "status": "proved",
   "theorems": [
    "Sqrid.C17_flip_h_exact",
    "Sqrid.C17_flip_v_exact",
    "Sqrid.C17_flip_laws"
   ],
   "note": "All listed theorems hold for every input they quantify over."
  },
  {
   "property": "C18",
   "status": "proved",
   "theorems": [
    "Sqrid.C18_rotate_exact",
    "Sqrid.C18_rotate_laws",
    "Sqrid.C18_non_square_panics"
   ],
   "note": "All listed theorems hold for every input they quantify over."
  },
  {
   "property": "C19",
   "status": "proved",
   "theorems": [
    "Sqrid.C19_is_side",
    "Sqrid.C19_is_corner",
    "Sqrid.C19_is_corner_positions"
   ],
   "note": "All listed theorems hold for every input they quantify over."
  },
  {
   "property": "C20",
   "status": "proved",
   "theorems": [
    "Sqrid.C20_add_dir_exact",
    "Sqrid.C20_add_dir_inverse",
    "Sqrid.C20_add_dir_injective"
   ],
   "note": "All listed theorems hold for every input they quantify over."
  },
  {
   "property": "C21",
   "status": "proved",
   "theorems": [
    "Sqrid.C21_none_iff_same",
    "Sqrid.C21_no_diagonal",
    "Sqrid.C21_follow_arrives",
    "Sqrid.C21_shortest"
   ],
   "note": "All listed theorems hold for every input they quantify over."
  },
  {
   "property": "C22",
   "status": "proved",
   "theorems": [
    "Sqrid.C22_flip",
    "Sqrid.C22_rotate",
    "Sqrid.C22_rotate_many",
    "Sqrid.C22_group",
    "Sqrid.C22_quarter_turn",
    "Sqrid.C22_is_diagonal"
   ],
   "note": "All listed theorems hold for every input they quantify over."
  },
  {
   "property": "C23",
   "status": "proved",
   "theorems": [
    "Sqrid.C23_to_tuple",
    "Sqrid.C23_of_tuple",
    "Sqrid.C23_of_tuple_rejects",
    "Sqrid.C23_round_trip"
   ],
   "note": "All listed theorems hold for every input they quantify over."
  },
  {
   "property": "C24",
   "status": "proved",
   "theorems": [
    "Sqrid.C24_try_from_char",
    "Sqrid.C24_parse",
    "Sqrid.C24_char_names_parse"
   ],
   "note": "All listed theorems hold for every input they quantify over."
  },
  {
   "property": "C25",
   "status": "partial",
   "theorems": [
    "Sqrid.C25_display_parse_refuted",
    "Sqrid.C25_display_parse_exact",
    "Sqrid.C25_display_parse_partial",
    "Sqrid.C25_display_injective"
   ],
   "note": "The full statement is false of the code. [C25_display_parse_refuted] C25 is violated by every diagonal: they print as two letters. [C25_display_parse_partial] C25, partial: the round trip holds for the four non-diagonals. Missing: the four diagonals."
  },
  {
   "property": "C26",
   "status": "partial",
   "theorems": [
    "Sqrid.C26_iter",
    "Sqrid.C26_iter_complete",
    "Sqrid.C26_next",
    "Sqrid.C26_total_refuted",
    "Sqrid.C26_total_partial"
   ],
   "note": "The full statement is false of the code. [C26_total_refuted] C26: asking for the non-diagonal successor of `NW` panics (index out of range). [C26_total_partial] C26: that is the only panic."
  },
  {
   "property": "C27",
   "status": "proved",
   "theorems": [
    "Sqrid.C27_get_safe",
    "Sqrid.C27_write_history",
    "Sqrid.C27_repeat"
   ],
   "note": "All listed theorems hold for every input they quantify over."
  },
  {
   "property": "C28",
   "status": "partial",
   "theorems": [
    "Sqrid.C28_refuted",
    "Sqrid.C28_get_exact",
    "Sqrid.C28_safe_iff_partial"
   ],
   "note": "The full statement is false of the code. [C28_refuted] C28 does not hold: the `_ASSERTS` constant is never evaluated, so `Grid::<_, Pos<2, 1>, 3>::repeat(7)` compiles and reading `(0, 1)` is an out-of-bounds `get_unchecked`. [C28_safe_iff_partial] C28, the part that holds: a grid is safe to read at every position exactly when SIZE is at least the number of positions. In particular it is when SIZE is the documented WIDTH*HEIGHT. Missing: nothing forces SIZE to be that."
  },
  {
   "property": "C29",
   "status": "proved",
   "theorems": [
    "Sqrid.C29_iter_pos",
    "Sqrid.C29_iter_order",
    "Sqrid.C29_collect"
   ],
   "note": "All listed theorems hold for every input they quantify over."
  },
  {
   "property": "C30",
   "status": "proved",
   "theorems": [
    "Sqrid.C30_extend",
    "Sqrid.C30_extend_copies"
   ],
   "note": "All listed theorems hold for every input they quantify over."
  },
  {
   "property": "C31",
   "status": "proved",
   "theorems": [
    "Sqrid.C31_try_from_vecvec"
   ],
   "note": "All listed theorems hold for every input they quantify over."
  },
  {
   "property": "C32",
   "status": "partial",
   "theorems": [
    "Sqrid.C32_refuted",
    "Sqrid.C32_extend_from_vecvec_partial",
    "Sqrid.C32_exact"
   ],
   "note": "The full statement is false of the code. [C32_refuted] C32 does not hold: the line number is truncated to 16 bits, so that on a 1x1 grid 65536 empty lines followed by `[5]` are accepted, and the 5 is written at (0,0). [C32_extend_from_vecvec_partial] C32, the part that holds: with at most 65536 lines of at most 65536 entries. If all entries are at places of the grid the call returns `Ok`, the cells of the entries are overwritten and no other. Otherwise it returns `Err(OutOfBounds)`; then the entries before the first misplaced one (in reading order) have been written, and nothing else. It never panics. Missing: longer vectors, see `C32_refuted`."
  },
  {
   "property": "C33",
   "status": "proved",
   "theorems": [
    "Sqrid.C33_flip_h",
    "Sqrid.C33_flip_v",
    "Sqrid.C33_flip_twice"
   ],
   "note": "All listed theorems hold for every input they quantify over."
  },
  {
   "property": "C34",
   "status": "proved",
   "theorems": [
    "Sqrid.C34_rotate",
    "Sqrid.C34_rotate_laws",
    "Sqrid.C34_rotate_flips"
   ],
   "note": "All listed theorems hold for every input they quantify over."
  },
  {
   "property": "C35",
   "status": "proved",
   "theorems": [
    "Sqrid.C35_line",
    "Sqrid.C35_line_mut"
   ],
   "note": "All listed theorems hold for every input they quantify over."
  },
  {
   "property": "C36",
   "status": "proved",
   "theorems": [
    "Sqrid.C36_neg",
    "Sqrid.C36_neg_total",
    "Sqrid.C36_neg_panics"
   ],
   "note": "All listed theorems hold for every input they quantify over."
  },
  {
   "property": "C37",
   "status": "proved",
   "theorems": [
    "Sqrid.C37_history",
    "Sqrid.C37_from_repeat",
    "Sqrid.C37_constants"
   ],
   "note": "All listed theorems hold for every input they quantify over."
  },
  {
   "property": "C38",
   "status": "proved",
   "theorems": [
    "Sqrid.C38_iter",
    "Sqrid.C38_iter_t_f"
   ],
   "note": "All listed theorems hold for every input they quantify over."
  },
  {
   "property": "C39",
   "status": "proved",
   "theorems": [
    "Sqrid.C39_collect_positions",
    "Sqrid.C39_collect_bools"
   ],
   "note": "All listed theorems hold for every input they quantify over."
  },
  {
   "property": "C40",
   "status": "proved",
   "theorems": [
    "Sqrid.C40_flip",
    "Sqrid.C40_flip_twice"
   ],
   "note": "All listed theorems hold for every input they quantify over."
  },
  {
   "property": "C41",
   "status": "partial",
   "theorems": [
    "Sqrid.C41_rotate_exact",
    "Sqrid.C41_refuted_every_even_size",
    "Sqrid.C41_refuted",
    "Sqrid.C41_odd_size_partial"
   ],
   "note": "The full statement is false of the code. [C41_refuted_every_even_size] C41 does not hold, on any square with an even number of lines: some content is not rotated (a gridbool that is true only at one of the four central positions is left as it is). [C41_refuted] C41 does not hold as stated. [C41_odd_size_partial] C41, the part that holds: on squares with an odd number of lines (M even), after `rotate_cw` the value at `p.rotate_cw()` is the former value at `p`, after `rotate_cc` that at `p.rotate_cc()` is, and each undoes the other. Missing: even sizes, see `C41_refuted_every_even_size`."
  },
  {
   "property": "C42",
   "status": "partial",
   "theorems": [
    "Sqrid.C42_refuted",
    "Sqrid.C42_equality_partial",
    "Sqrid.C42_exact"
   ],
   "note": "The full statement is false of the code. [C42_refuted] C42 does not hold: on a 1x1 grid, `repeat(true)` and `repeat(false)` followed by `set_t((0,0))` agree at the only position, and are not equal because the unused bits are compared. [C42_equality_partial] C42, the part that holds: equality is agreement at every position between gridbools built from the same `repeat(b)` (in particular between those built from `default()` or by collecting), and between any two when the number of positions is exactly `32 * WORDS`. Missing: gridbools built from different constants on other sizes, see `C42_refuted`."
  },
  {
   "property": "C43",
   "status": "proved",
   "theorems": [
    "Sqrid.C43_macros",
    "Sqrid.C43_static_exact"
   ],
   "note": "All listed theorems hold for every input they quantify over."
  },
  {
   "property": "C44",
   "status": "partial",
   "theorems": [
    "Sqrid.C44_refuted",
    "Sqrid.C44_refuted_every_tuple",
    "Sqrid.C44_tuple_exact",
    "Sqrid.C44_tuple_model",
    "Sqrid.C44_u8_gridbool_panics",
    "Sqrid.C44_pos_partial",
    "Sqrid.C44_pos_inherent"
   ],
   "note": "The full statement is false of the code. [C44_refuted] C44 does not hold: `<(u8, u8)>::WIDTH` is 255 and `<(u8, u8)>::width()` is 256. [C44_refuted_every_tuple] C44. The disagreement is there for every integer tuple of the crate. [C44_pos_partial] C44, the part that holds: for every `Pos` type the trait constants agree with `width()`, `height()` and the number of columns and lines, so that every WORDS accepted at compile time holds every position. Missing: the integer tuples, see the refutations."
  },
  {
   "property": "C45",
   "status": "proved",
   "theorems": [
    "Sqrid.C45_sets",
    "Sqrid.C45_interchangeable"
   ],
   "note": "All listed theorems hold for every input they quantify over."
  },
  {
   "property": "C46",
   "status": "proved",
   "theorems": [
    "Sqrid.C46_maps",
    "Sqrid.C46_maps_default",
    "Sqrid.C46_interchangeable"
   ],
   "note": "All listed theorems hold for every input they quantify over."
  },
  {
   "property": "C47",
   "status": "proved",
   "theorems": [
    "Sqrid.C47_real_path"
   ],
   "note": "All listed theorems hold for every input they quantify over."
  },
  {
   "property": "C48",
   "status": "partial",
   "theorems": [
    "Sqrid.C48_exact",
    "Sqrid.C48_wide_partial",
    "Sqrid.C48_refuted"
   ],
   "note": "The full statement is false of the code. [C48_refuted] C48 is false for a column of eleven positions: following the map from (0, 2) leads to (0, 0) in two steps, but `Loop` is returned. [C48_wide_partial] C48, for grids that are not taller than wide. What is missing: taller grids, for which it is false (`C48_refuted`); `C48_exact` covers them."
  },
  {
   "property": "C49",
   "status": "partial",
   "theorems": [
    "Sqrid.C49_layers_exact",
    "Sqrid.C49_layers_partial",
    "Sqrid.C49_refuted"
   ],
   "note": "The full statement is false of the code. [C49_refuted] C49 is false when a step leads from the origin to itself: the first layer has the origin, which is at distance 0. [C49_layers_partial] C49, when no step leads from the origin to itself. What is missing: movement functions with such a step, for which the claim is false (`C49_refuted`); `C49_layers_exact` covers them."
  },
  {
   "property": "C50",
   "status": "partial",
   "theorems": [
    "Sqrid.C50_visits_exact",
    "Sqrid.C50_visits_partial",
    "Sqrid.C50_refuted"
   ],
   "note": "The full statement is false of the code. [C50_refuted] C50 is false when a step leads from the origin to itself: the origin is yielded. [C50_visits_partial] C50, when no step leads from the origin to itself. What is missing: movement functions with such a step, for which the claim is false (`C50_refuted`); `C50_visits_exact` covers them."
  },
  {
   "property": "C51",
   "status": "proved",
   "theorems": [
    "Sqrid.C51_valid_path",
    "Sqrid.C51_walks"
   ],
   "note": "All listed theorems hold for every input they quantify over."
  },
  {
   "property": "C52",
   "status": "proved",
   "theorems": [
    "Sqrid.C52_shortest"
   ],
   "note": "All listed theorems hold for every input they quantify over."
  },
  {
   "property": "C53",
   "status": "partial",
   "theorems": [
    "Sqrid.C53_exact",
    "Sqrid.C53_wide_partial",
    "Sqrid.C53_refuted_origin",
    "Sqrid.C53_refuted_tall"
   ],
   "note": "The full statement is false of the code. [C53_refuted_origin] C53 is false for a goal at the origin: it is not found. [C53_refuted_tall] C53 is false for a column: a goal two steps away is reported as `Loop`. [C53_wide_partial] C53, for grids that are not taller than wide and predicates that are false at the origin. What is missing: taller grids (`C53_refuted_tall`) and goals at the origin (`C53_refuted_origin`), for which it is false; `C53_exact` covers both."
  },
  {
   "property": "C54",
   "status": "proved",
   "theorems": [
    "Sqrid.C54_iter_agree",
    "Sqrid.C54_search_agree"
   ],
   "note": "All listed theorems hold for every input they quantify over."
  },
  {
   "property": "C55",
   "status": "proved",
   "theorems": [
    "Sqrid.C55_valid_path"
   ],
   "note": "All listed theorems hold for every input they quantify over."
  },
  {
   "property": "C56",
   "status": "proved",
   "theorems": [
    "Sqrid.C56_terminates"
   ],
   "note": "All listed theorems hold for every input they quantify over."
  },
  {
   "property": "C57",
   "status": "partial",
   "theorems": [
    "Sqrid.C57_unreachable_partial",
    "Sqrid.C57_wide_straight_partial",
    "Sqrid.C57_refuted_tall",
    "Sqrid.C57_refuted_diagonals",
    "Sqrid.C57_no_detour_exact",
    "Sqrid.C57_near_straight_partial"
   ],
   "note": "The full statement is false of the code. [C57_refuted_tall] C57 is false on a grid of one column: `Loop` although the destination is two steps away. [C57_refuted_diagonals] C57 is false with diagonals, also on square grids: `Loop` although there is a path. [C57_unreachable_partial] C57, for every grid and both modes: `DestinationUnreachable` exactly if the destination cannot be reached; if it can, a path or `Loop`. What is missing: that it is never `Loop`, which is false with diagonals (`C57_refuted_diagonals`) and on tall grids (`C57_refuted_tall`). [C57_wide_straight_partial] C57, without diagonals, on grids that are not taller than wide: the full claim. [C57_near_straight_partial] C57, without diagonals, on grids of any shape: a destination whose distance is less than the number of columns is found. What is missing: the same for destinations further away, which is false on tall grids (`C57_refuted_tall`), and with diagonals (`C57_refuted_diagonals`)."
  },
  {
   "property": "C58",
   "status": "partial",
   "theorems": [
    "Sqrid.C58_no_detour_partial",
    "Sqrid.C58_refuted_straight",
    "Sqrid.C58_refuted_diagonals"
   ],
   "note": "The full statement is false of the code. [C58_refuted_straight] C58 is false without diagonals: the search returns ten steps, and eight are enough. [C58_refuted_diagonals] C58 is false with diagonals: the search returns four steps, and three are enough. [C58_no_detour_partial] C58, without diagonals, when some path is as long as the Manhattan distance (no detour is needed). What is missing: destinations that need a detour and diagonals, for which the claim is false (`C58_refuted_straight`, `C58_refuted_diagonals`)."
  },
  {
   "property": "C59",
   "status": "proved",
   "theorems": [
    "Sqrid.C59_agree"
   ],
   "note": "All listed theorems hold for every input they quantify over."
  },
  {
   "property": "C60",
   "status": "proved",
   "theorems": [
    "Sqrid.C60_true_distance"
   ],
   "note": "All listed theorems hold for every input they quantify over."
  },
  {
   "property": "C61",
   "status": "proved",
   "theorems": [
    "Sqrid.C61_valid_path"
   ],
   "note": "All listed theorems hold for every input they quantify over."
  },
  {
   "property": "C62",
   "status": "partial",
   "theorems": [
    "Sqrid.C62_near_partial",
    "Sqrid.C62_unit_exact",
    "Sqrid.C62_never_invalid",
    "Sqrid.C62_unreachable_partial",
    "Sqrid.C62_wide_partial",
    "Sqrid.C62_refuted_tall"
   ],
   "note": "The full statement is false of the code. [C62_refuted_tall] C62 is false on a grid of one column: `Loop` although the destination is two steps away. [C62_near_partial] C62, on grids of any shape: if every step costs `c` or more, a destination with a cheapest cost below `(m + 1) c` is found when the grid has at least `2m + 1` columns, or `2m² + 2m` is not more than the square of their number and there are no diagonals. What is missing: the same for destinations further away, which is false on tall grids (`C62_refuted_tall`). [C62_unreachable_partial] C62, for every grid: `DestinationUnreachable` exactly if the destination cannot be reached; if it can, a path or `Loop`. What is missing: that it is never `Loop`, which is false on tall grids (`C62_refuted_tall`). [C62_wide_partial] C62, on grids that are not taller than wide: the full claim."
  },
  {
   "property": "C63",
   "status": "partial",
   "theorems": [
    "Sqrid.C63_enter_cost_partial",
    "Sqrid.C63_refuted_straight",
    "Sqrid.C63_refuted_diagonals"
   ],
   "note": "The full statement is false of the code. [C63_refuted_straight] C63 is false without diagonals: the search returns a path of cost 12, and 10 is enough. [C63_refuted_diagonals] C63 is false with diagonals: the search returns a path of cost 4, and 3 is enough. [C63_enter_cost_partial] C63, when the cost of a step depends only on the position it leads to (such as the unit cost). What is missing: other costs, for which the claim is false (`C63_refuted_straight`, `C63_refuted_diagonals`)."
  },
  {
   "property": "C64",
   "status": "proved",
   "theorems": [
    "Sqrid.C64_cost_order"
   ],
   "note": "All listed theorems hold for every input they quantify over."
  },
  {
   "property": "C65",
   "status": "proved",
   "theorems": [
    "Sqrid.C65_agree"
   ],
   "note": "All listed theorems hold for every input they quantify over."
  },
  {
   "property": "C66",
   "status": "proved",
   "theorems": [
    "Sqrid.C66_no_panic",
    "Sqrid.C66_small_steps"
   ],
   "note": "All listed theorems hold for every input they quantify over."
  },
  {
   "property": "C67",
   "status": "proved",
   "theorems": [
    "Sqrid.C67_agree"
   ],
   "note": "All listed theorems hold for every input they quantify over."
  },
  {
   "property": "C68",
   "status": "proved",
   "theorems": [
    "Sqrid.C68_grid_text",
    "Sqrid.C68_column_labels",
    "Sqrid.C68_pad"
   ],
   "note": "All listed theorems hold for every input they quantify over."
  },
  {
   "property": "C69",
   "status": "proved",
   "theorems": [
    "Sqrid.C69_gridbool_text",
    "Sqrid.C69_text_faithful",
    "Sqrid.C69_char_at"
   ],
   "note": "All listed theorems hold for every input they quantify over."
  },
  {
   "property": "C70",
   "status": "proved",
   "theorems": [
    "Sqrid.C70_pos_text"
   ],
   "note": "All listed theorems hold for every input they quantify over."
  },
  {
   "property": "C71",
   "status": "proved",
   "theorems": [
    "Sqrid.C71_named_positions",
    "Sqrid.C71_sizes"
   ],
   "note": "All listed theorems hold for every input they quantify over."
  },
  {
   "property": "C72",
   "status": "proved",
   "theorems": [
    "Sqrid.C72_tryfrom_pos",
    "Sqrid.C72_pos_round_trips",
    "Sqrid.C72_accessors",
    "Sqrid.C72_new_static"
   ],
   "note": "All listed theorems hold for every input they quantify over."
  },
  {
   "property": "C73",
   "status": "proved",
   "theorems": [
    "Sqrid.C73_order",
    "Sqrid.C73_vertical_sorted",
    "Sqrid.C73_reading_order"
   ],
   "note": "All listed theorems hold for every input they quantify over."
  },
  {
   "property": "C74",
   "status": "proved",
   "theorems": [
    "Sqrid.C74_grid_eq",
    "Sqrid.C74_grid_cmp",
    "Sqrid.C74_as_array",
    "Sqrid.C74_iter_mut"
   ],
   "note": "All listed theorems hold for every input they quantify over."
  },
  {
   "property": "C75",
   "status": "proved",
   "theorems": [
    "Sqrid.C75_layout",
    "Sqrid.C75_as_inner_mut",
    "Sqrid.C75_gridbool_cmp"
   ],
   "note": "All listed theorems hold for every input they quantify over."
  },
  {
   "property": "C76",
   "status": "partial",
   "theorems": [
    "Sqrid.C76_refuted",
    "Sqrid.C76_width_height_exact",
    "Sqrid.C76_to_usize_exact",
    "Sqrid.C76_to_usize_injective",
    "Sqrid.C76_tryfrom_usize_exact",
    "Sqrid.C76_from_to_usize",
    "Sqrid.C76_grids_partial"
   ],
   "note": "The full statement is false of the code. [C76_refuted] C76 does not hold: `(-1i8, 0i8).to_usize()` panics. [C76_grids_partial] C76, the part that holds: for grids that start at (0, 0) and whose number of positions fits in `usize` (every `Pos`), `width()`, `height()` and `dimensions()` are the number of columns, lines and positions, and `to_usize` is the rank in reading order. Missing: types with other bounds, for which the exact behaviour is in the theorems above."
  },
  {
   "property": "C77",
   "status": "partial",
   "theorems": [
    "Sqrid.C77_flip_exact",
    "Sqrid.C77_flip_correct_iff",
    "Sqrid.C77_refuted",
    "Sqrid.C77_flip_partial",
    "Sqrid.C77_rotate_exact",
    "Sqrid.C77_rotate_total_iff"
   ],
   "note": "The full statement is false of the code. [C77_refuted] C77 does not hold: `(127i8, 0i8).flip_h()` is `(0, 0)`, not `(-128, 0)`. [C77_flip_partial] C77, the part that holds: the claim, for the types whose coordinates start at 0."
  },
  {
   "property": "C78",
   "status": "proved",
   "theorems": [
    "Sqrid.C78_error_texts"
   ],
   "note": "All listed theorems hold for every input they quantify over."
  },
  {
   "property": "C79",
   "status": "partial",
   "theorems": [
    "Sqrid.C79_made_partial",
    "Sqrid.C79_made_access_partial",
    "Sqrid.C79_refuted",
    "Sqrid.C79_raw_fields_exact"
   ],
   "note": "The full statement is false of the code. [C79_refuted] C79 does not hold: on `Pos<0, 0>`, `grid[Pos::from((BoundedU16::from(true), BoundedU16::from(false)))]` reads outside of the array, in a program without `unsafe`. [C79_made_partial] C79, the part that holds: every position made with the constructors, conversions, constants, moves and iterators of the crate, in any number and order, is a position of its grid. Missing: the public fields and `From<bool>`, see `C79_refuted`. [C79_made_access_partial] C79. Hence reading or writing a grid of the right SIZE at such a position never leaves the array and never panics."
  },
  {
   "property": "C80",
   "status": "proved",
   "theorems": [
    "Sqrid.C80_order"
   ],
   "note": "All listed theorems hold for every input they quantify over."
  },
  {
   "property": "C81",
   "status": "proved",
   "theorems": [
    "Sqrid.C81_first_goal"
   ],
   "note": "All listed theorems hold for every input they quantify over."
  },
  {
   "property": "C82",
   "status": "proved",
   "theorems": [
    "Sqrid.C82_distance",
    "Sqrid.C82_layers",
    "Sqrid.C82_paths"
   ],
   "note": "All listed theorems hold for every input they quantify over."
  },
  {
   "property": "C83",
   "status": "proved",
   "theorems": [
    "Sqrid.C83_astar_same",
    "Sqrid.C83_ucs_same"
   ],
   "note": "All listed theorems hold for every input they quantify over."
  },
  {
   "property": "C84",
   "status": "proved",
   "theorems": [
    "Sqrid.C84_bf_iter",
    "Sqrid.C84_bfs",
    "Sqrid.C84_astar",
    "Sqrid.C84_ucs"
   ],
   "note": "All listed theorems hold for every input they quantify over."
  },
  {
   "property": "C85",
   "status": "proved",
   "theorems": [
    "Sqrid.C85_bfs_reverse",
    "Sqrid.C85_ucs_unit_reverse"
   ],
   "note": "All listed theorems hold for every input they quantify over."
  },
  {
   "property": "C86",
   "status": "proved",
   "theorems": [
    "Sqrid.C86_bf_fused",
    "Sqrid.C86_astar_fused",
    "Sqrid.C86_ucs_fused"
   ],
   "note": "All listed theorems hold for every input they quantify over."
  },
  {
   "property": "C87",
   "status": "proved",
   "theorems": [
    "Sqrid.C87_bfs_monotone",
    "Sqrid.C87_ucs_unit_monotone"
   ],
   "note": "All listed theorems hold for every input they quantify over."
  },
  {
   "property": "C88",
   "status": "proved",
   "theorems": [
    "Sqrid.C88_direct_exact",
    "Sqrid.C88_direct_unique",
    "Sqrid.C88_open_exact"
   ],
   "note": "All listed theorems hold for every input they quantify over."
  },
  {
   "property": "C89",
   "status": "proved",
   "theorems": [
    "Sqrid.C89_astar_within",
    "Sqrid.C89_ucs_within"
   ],
   "note": "All listed theorems hold for every input they quantify over."
  },
  {
   "property": "C90",
   "status": "proved",
   "theorems": [
    "Sqrid.C90_bfs_prefix"
   ],
   "note": "All listed theorems hold for every input they quantify over."
  },
  {
   "property": "C91",
   "status": "proved",
   "theorems": [
    "Sqrid.C91_bfs_simple",
    "Sqrid.C91_astar_simple",
    "Sqrid.C91_ucs_simple"
   ],
   "note": "All listed theorems hold for every input they quantify over."
  },
  {
   "property": "C92",
   "status": "proved",
   "theorems": [
    "Sqrid.C92_own_positions"
   ],
   "note": "All listed theorems hold for every input they quantify over."
  },
  {
   "property": "C93",
   "status": "partial",
   "theorems": [
    "Sqrid.C93_refuted_bfs",
    "Sqrid.C93_refuted_astar",
    "Sqrid.C93_refuted_ucs",
    "Sqrid.C93_bfs_partial",
    "Sqrid.C93_bf_iter",
    "Sqrid.C93_astar_partial",
    "Sqrid.C93_ucs_partial",
    "Sqrid.C93_std"
   ],
   "note": "The full statement is false of the code. [C93_refuted_bfs] C93 does not hold: `sqrid_create!(1, 1, false)` has SIZE 4, and nothing stops its `bfs_path` from being called with positions of `Pos<2, 1>`, of which there are 6. [C93_refuted_astar] C93 does not hold for `astar_path` either, with positions of a type of any size. [C93_refuted_ucs] C93 does not hold for `ucs_path` either. [C93_bfs_partial] C93, the part that holds, for `bfs_path`: when the type has at least as many cells as there are positions, there is no undefined behaviour, and the result is the one of `bfs_path_hash`. Missing: nothing checks that. [C93_astar_partial] C93, the part that holds, for `astar_path`. [C93_ucs_partial] C93, the part that holds, for `ucs_path`."
  },
  {
   "property": "C94",
   "status": "proved",
   "theorems": [
    "Sqrid.C94_bf_iter",
    "Sqrid.C94_bfs",
    "Sqrid.C94_astar",
    "Sqrid.C94_ucs"
   ],
   "note": "All listed theorems hold for every input they quantify over."
  },
  {
   "property": "C95",
   "status": "proved",
   "theorems": [
    "Sqrid.C95_bf_iter_calls",
    "Sqrid.C95_astar_calls",
    "Sqrid.C95_ucs_calls"
   ],
   "note": "All listed theorems hold for every input they quantify over."
  },
  {
   "property": "C96",
   "status": "proved",
   "theorems": [
    "Sqrid.C96_any_closure"
   ],
   "note": "All listed theorems hold for every input they quantify over."
  },
  {
   "property": "C97",
   "status": "proved",
   "theorems": [
    "Sqrid.C97_any_closures"
   ],
   "note": "All listed theorems hold for every input they quantify over."
  },
  {
   "property": "C98",
   "status": "proved",
   "theorems": [
    "Sqrid.C98_any_closure"
   ],
   "note": "All listed theorems hold for every input they quantify over."
  },
  {
   "property": "C99",
   "status": "proved",
   "theorems": [
    "Sqrid.C99_any_closure"
   ],
   "note": "All listed theorems hold for every input they quantify over."
  },
  {
   "property": "C100",
   "status": "proved",
   "theorems": [
    "Sqrid.C100_bfs_granted",
    "Sqrid.C100_astar_granted",
    "Sqrid.C100_ucs_granted",
    "Sqrid.C100_ucs_loop_occurs",
    "Sqrid.C100_astar_loop_occurs"
   ],
   "note": "All listed theorems hold for every input they quantify over."
  },
  {
   "property": "C101",
   "status": "proved",
   "theorems": [
    "Sqrid.C101_flip_signed",
    "Sqrid.C101_no_ub",
    "Sqrid.C101_get_set_exact"
   ],
   "note": "All listed theorems hold for every input they quantify over."
  },
  {
   "property": "C102",
   "status": "proved",
   "theorems": [
    "Sqrid.C102_dir_order"
   ],
   "note": "All listed theorems hold for every input they quantify over."
  },
  {
   "property": "C103",
   "status": "proved",
   "theorems": [
    "Sqrid.C103_positions",
    "Sqrid.C103_size_hints",
    "Sqrid.C103_grid",
    "Sqrid.C103_gridbool",
    "Sqrid.C103_bf",
    "Sqrid.C103_astar",
    "Sqrid.C103_ucs",
    "Sqrid.C103_best_first_iterators",
    "Sqrid.C103_camefrom",
    "Sqrid.C103_sqrid"
   ],
   "note": "All listed theorems hold for every input they quantify over."
  },
  {
   "property": "C104",
   "status": "partial",
   "theorems": [
    "Sqrid.C104_width_height",
    "Sqrid.C104_dimensions",
    "Sqrid.C104_to_usize",
    "Sqrid.C104_tryfrom_usize",
    "Sqrid.C104_manhattan",
    "Sqrid.C104_rotate",
    "Sqrid.C104_refuted",
    "Sqrid.C104_injective_partial"
   ],
   "note": "The full statement is false of the code. [C104_refuted] C104 does not hold: in a 64-bit release build both `(0u64, 0u64)` and `(0u64, 1u64)` give 0. [C104_injective_partial] C104, the part that holds: `to_usize` of a release build gives different numbers to different positions if the number of the last one fits in `usize`."
  },
  {
   "property": "C105",
   "status": "partial",
   "theorems": [
    "Sqrid.C105_refuted",
    "Sqrid.C105_any_costs_partial",
    "Sqrid.C105_no_overflow_partial"
   ],
   "note": "The full statement is false of the code. [C105_refuted] C105 does not hold without overflow checks: the sum of the costs of E, E wraps around to 0, and the search goes through the costliest position. [C105_any_costs_partial] C105, what holds: without overflow checks uniform-cost search always ends and never panics, also if sums of costs wrap around. If there is no path, it says so. If there is one, the answer is a path (maybe not a cheapest one), `DestinationUnreachable` or `Loop`. [C105_no_overflow_partial] C105. Where no sum of costs goes over the limit, the release build finds a cheapest path, as the debug build does."
  },
  {
   "property": "C106",
   "status": "partial",
   "theorems": [
    "Sqrid.C106_pos",
    "Sqrid.C106_refuted",
    "Sqrid.C106_dimensions_exact",
    "Sqrid.C106_dimensions_partial"
   ],
   "note": "The full statement is false of the code. [C106_refuted] C106 does not hold: on a 32-bit machine `Pos::<65535, 65535>::dimensions()` panics in a debug build and is 0 in a release build. [C106_dimensions_partial] C106, the part that holds: the claim for every `Pos<XMAX, YMAX>` with at most 4294967295 positions."
  },
  {
   "property": "C107",
   "status": "proved",
   "theorems": [
    "Sqrid.C107_sets",
    "Sqrid.C107_maps",
    "Sqrid.C107_layers",
    "Sqrid.C107_visits"
   ],
   "note": "All listed theorems hold for every input they quantify over."
  },
  {
   "property": "C108",
   "status": "partial",
   "theorems": [
    "Sqrid.C108_exact",
    "Sqrid.C108_near_partial",
    "Sqrid.C108_refuted_far",
    "Sqrid.C108_never"
   ],
   "note": "The full statement is false of the code. [C108_refuted_far] C108 is false for `(i8, i8)`, in every build: the search panics when the goal is 200 columns away. [C108_near_partial] C108, when the arithmetic of the way back fits for each goal that can be reached, and no position is more than `(XMAX + 1)²` steps away, with `XMAX` the largest x coordinate. What is missing: other cases, for which it is false (`C108_refuted_far`, `C108_never`); `C108_exact` covers them."
  },
  {
   "property": "C109",
   "status": "partial",
   "theorems": [
    "Sqrid.C109_straight_exact",
    "Sqrid.C109_diagonals_exact",
    "Sqrid.C109_near_partial",
    "Sqrid.C109_refuted_far",
    "Sqrid.C109_never"
   ],
   "note": "The full statement is false of the code. [C109_refuted_far] C109 is false for `(i8, i8)`, in every build: the search panics when the destination is 200 columns away. [C109_near_partial] C109, when the sums and the way back fit and at most `(XMAX + 1)²` positions other than the origin can be reached, with `XMAX` the largest x coordinate. What is missing: other cases, for which it is false (`C109_refuted_far`, `C109_never`); `C109_straight_exact` covers them."
  },
  {
   "property": "C110",
   "status": "partial",
   "theorems": [
    "Sqrid.C110_exact",
    "Sqrid.C110_near_partial",
    "Sqrid.C110_refuted_far",
    "Sqrid.C110_never"
   ],
   "note": "The full statement is false of the code. [C110_refuted_far] C110 is false for `(i8, i8)`, in every build: the search panics when the destination is 200 columns away. [C110_near_partial] C110, when the way back fits and at most `(XMAX + 1)²` positions other than the origin can be reached, with `XMAX` the largest x coordinate. What is missing: other cases, for which it is false (`C110_refuted_far`, `C110_never`); `C110_exact` covers them."
  },
  {
   "property": "C111",
   "status": "proved",
   "theorems": [
    "Sqrid.C111_real_path",
    "Sqrid.C111_exact"
   ],
   "note": "All listed theorems hold for every input they quantify over."
  },
  {
   "property": "C112",
   "status": "proved",
   "theorems": [
    "Sqrid.C112_values",
    "Sqrid.C112_position_calls",
    "Sqrid.C112_grids",
    "Sqrid.C112_sets_maps",
    "Sqrid.C112_searches"
   ],
   "note": "All listed theorems hold for every input they quantify over."
  },
  {
   "property": "C113",
   "status": "proved",
   "theorems": [
    "Sqrid.C113_bounded_text",
    "Sqrid.C113_debug_text"
   ],
   "note": "All listed theorems hold for every input they quantify over."
  },
  {
   "property": "C114",
   "status": "proved",
   "theorems": [
    "Sqrid.C114_binary_heap",
    "Sqrid.C114_model_heap",
    "Sqrid.C114_iterators",
    "Sqrid.C114_astar",
    "Sqrid.C114_ucs"
   ],
   "note": "All listed theorems hold for every input they quantify over."
  },
  {
   "property": "C115",
   "status": "proved",
   "theorems": [
    "Sqrid.C115_sets",
    "Sqrid.C115_maps",
    "Sqrid.C115_traversal",
    "Sqrid.C115_bfs",
    "Sqrid.C115_astar",
    "Sqrid.C115_ucs",
    "Sqrid.C115_camefrom"
   ],
   "note": "All listed theorems hold for every input they quantify over."
  },
  {
   "property": "C116",
   "status": "proved",
   "theorems": [
    "Sqrid.C116_no_ub",
    "Sqrid.C116_get_set_exact",
    "Sqrid.C116_safe_iff_checks",
    "Sqrid.C116_safe_iff_release",
    "Sqrid.C116_line_checks",
    "Sqrid.C116_line_release",
    "Sqrid.C116_line_mut",
    "Sqrid.C116_flip_signed"
   ],
   "note": "All listed theorems hold for every input they quantify over."
  },
  {
   "property": "C117",
   "status": "proved",
   "theorems": [
    "Sqrid.C117_ucs_steps",
    "Sqrid.C117_ucs_bound",
    "Sqrid.C117_astar_steps",
    "Sqrid.C117_astar_bound",
    "Sqrid.C117_ucs_tight"
   ],
   "note": "All listed theorems hold for every input they quantify over."
  },
  {
   "property": "C118",
   "status": "proved",
   "theorems": [
    "Sqrid.C118_bf_iter",
    "Sqrid.C118_ucs",
    "Sqrid.C118_astar",
    "Sqrid.C118_bfs",
    "Sqrid.C118_ucs_iter",
    "Sqrid.C118_astar_iter"
   ],
   "note": "All listed theorems hold for every input they quantify over."
  },
  {
   "property": "C119",
   "status": "proved",
   "theorems": [
    "Sqrid.C119_pos_text",
    "Sqrid.C119_gridbool_text",
    "Sqrid.C119_grid_text",
    "Sqrid.C119_readable",
    "Sqrid.C119_gridbool_read",
    "Sqrid.C119_grid_read",
    "Sqrid.C119_iterators",
    "Sqrid.C119_iterators_text",
    "Sqrid.C119_search_iterators_text",
    "Sqrid.C119_search_iterators",
    "Sqrid.C119_int_text"
   ],
   "note": "All listed theorems hold for every input they quantify over."
  },
  {
   "property": "C120",
   "status": "proved",
   "theorems": [
    "Sqrid.C120_ucs_enter",
    "Sqrid.C120_astar_twice",
    "Sqrid.C120_astar_calls",
    "Sqrid.C120_astar_twice_occurs",
    "Sqrid.C120_ucs_once",
    "Sqrid.C120_ucs_calls",
    "Sqrid.C120_ucs_fan_occurs"
   ],
   "note": "All listed theorems hold for every input they quantify over."
  },
  {
   "property": "C121",
   "status": "proved",
   "theorems": [
    "Sqrid.C121_path",
    "Sqrid.C121_iter",
    "Sqrid.C121_uniform",
    "Sqrid.C121_zero_differs",
    "Sqrid.C121_limit_matters"
   ],
   "note": "All listed theorems hold for every input they quantify over."
  },
  {
   "property": "C122",
   "status": "proved",
   "theorems": [
    "Sqrid.C122_bfs",
    "Sqrid.C122_bf_iter",
    "Sqrid.C122_astar_unreachable",
    "Sqrid.C122_astar_direct",
    "Sqrid.C122_ucs_unit",
    "Sqrid.C122_ucs_unreachable",
    "Sqrid.C122_ucs_cost",
    "Sqrid.C122_walls",
    "Sqrid.C122_astar_differs_straight",
    "Sqrid.C122_astar_differs_diagonals",
    "Sqrid.C122_ucs_differs"
   ],
   "note": "All listed theorems hold for every input they quantify over."
  },
  {
   "property": "C123",
   "status": "partial",
   "theorems": [
    "Sqrid.C123_grid",
    "Sqrid.C123_gridbool_exact",
    "Sqrid.C123_same_partial",
    "Sqrid.C123_refuted"
   ],
   "note": "The full statement is false of the code. [C123_refuted] C123 is false for a grid of 2x2. [C123_same_partial] C123, when there are no rotations or the number of columns is odd. Missing: rotations of grids with an even number of columns, for which it is false (`C123_refuted`); `C123_gridbool_exact` says what a `Gridbool` does then."
  },
  {
   "property": "C124",
   "status": "proved",
   "theorems": [
    "Sqrid.C124_bfs",
    "Sqrid.C124_ucs_unit",
    "Sqrid.C124_ucs",
    "Sqrid.C124_ucs_enter",
    "Sqrid.C124_astar",
    "Sqrid.C124_loop_occurs",
    "Sqrid.C124_astar_longer"
   ],
   "note": "All listed theorems hold for every input they quantify over."
  },
  {
   "property": "C125",
   "status": "proved",
   "theorems": [
    "Sqrid.C125_positions",
    "Sqrid.C125_bounded",
    "Sqrid.C125_nth",
    "Sqrid.C125_nth_back"
   ],
   "note": "All listed theorems hold for every input they quantify over."
  },
  {
   "property": "C126",
   "status": "proved",
   "theorems": [
    "Sqrid.C126_gridbool",
    "Sqrid.C126_normal_form",
    "Sqrid.C126_grid_to_gridbool",
    "Sqrid.C126_gridbool_to_grid"
   ],
   "note": "All listed theorems hold for every input they quantify over."
  },
  {
   "property": "C127",
   "status": "proved",
   "theorems": [
    "Sqrid.C127_ucs_enter",
    "Sqrid.C127_ucs_dearer",
    "Sqrid.C127_astar_longer"
   ],
   "note": "All listed theorems hold for every input they quantify over."
  },
  {
   "property": "C128",
   "status": "proved",
   "theorems": [
    "Sqrid.C128_astar_within",
    "Sqrid.C128_straight",
    "Sqrid.C128_diagonals",
    "Sqrid.C128_iter_straight",
    "Sqrid.C128_iter_diagonals",
    "Sqrid.C128_sharp"
   ],
   "note": "All listed theorems hold for every input they quantify over."
  },
  {
   "property": "C129",
   "status": "proved",
   "theorems": [
    "Sqrid.C129_astar",
    "Sqrid.C129_ucs"
   ],
   "note": "All listed theorems hold for every input they quantify over."
  },
  {
   "property": "C130",
   "status": "proved",
   "theorems": [
    "Sqrid.C130_range",
    "Sqrid.C130_lines",
    "Sqrid.C130_lines_any",
    "Sqrid.C130_dirs",
    "Sqrid.C130_gridbool",
    "Sqrid.C130_grid",
    "Sqrid.C130_bf",
    "Sqrid.C130_astar",
    "Sqrid.C130_ucs"
   ],
   "note": "All listed theorems hold for every input they quantify over."
  },
  {
   "property": "C131",
   "status": "proved",
   "theorems": [
    "Sqrid.C131_ucs",
    "Sqrid.C131_ucs_start",
    "Sqrid.C131_astar",
    "Sqrid.C131_ucs_far"
   ],
   "note": "All listed theorems hold for every input they quantify over."
  },
  {
   "property": "C132",
   "status": "proved",
   "theorems": [
    "Sqrid.C132_grid_flips",
    "Sqrid.C132_grid_square",
    "Sqrid.C132_grid_eight",
    "Sqrid.C132_grid_reverse",
    "Sqrid.C132_grid_half_turn",
    "Sqrid.C132_gridbool",
    "Sqrid.C132_gridbool_odd",
    "Sqrid.C132_gridbool_even"
   ],
   "note": "All listed theorems hold for every input they quantify over."
  },
  {
   "property": "C133",
   "status": "proved",
   "theorems": [
    "Sqrid.C133_bfs_layers",
    "Sqrid.C133_astar_calls",
    "Sqrid.C133_astar_diagonals",
    "Sqrid.C133_ucs_calls",
    "Sqrid.C133_ucs_length",
    "Sqrid.C133_ucs_found"
   ],
   "note": "All listed theorems hold for every input they quantify over."
  },
  {
   "property": "C134",
   "status": "proved",
   "theorems": [
    "Sqrid.C134_no_options",
    "Sqrid.C134_int_text",
    "Sqrid.C134_hex_text",
    "Sqrid.C134_gridbool_text",
    "Sqrid.C134_gridbool_read",
    "Sqrid.C134_readable",
    "Sqrid.C134_unclear"
   ],
   "note": "All listed theorems hold for every input they quantify over."
  },
  {
   "property": "C135",
   "status": "proved",
   "theorems": [
    "Sqrid.C135_astar_straight",
    "Sqrid.C135_astar",
    "Sqrid.C135_ucs",
    "Sqrid.C135_bf",
    "Sqrid.C135_ucs_stale_occurs"
   ],
   "note": "All listed theorems hold for every input they quantify over."
  },
  {
   "property": "C136",
   "status": "proved",
   "theorems": [
    "Sqrid.C136_ucs",
    "Sqrid.C136_astar",
    "Sqrid.C136_astar_length",
    "Sqrid.C136_astar_sum",
    "Sqrid.C136_astar_rises"
   ],
   "note": "All listed theorems hold for every input they quantify over."
  },
  {
   "property": "C137",
   "status": "proved",
   "theorems": [
    "Sqrid.C137_astar_far",
    "Sqrid.C137_ucs",
    "Sqrid.C137_astar",
    "Sqrid.C137_astar_walls"
   ],
   "note": "All listed theorems hold for every input they quantify over."
  },
  {
   "property": "C138",
   "status": "proved",
   "theorems": [
    "Sqrid.C138_ucs",
    "Sqrid.C138_astar"
   ],
   "note": "All listed theorems hold for every input they quantify over."
  },
  {
   "property": "C139",
   "status": "proved",
   "theorems": [
    "Sqrid.C139_ucs",
    "Sqrid.C139_astar",
    "Sqrid.C139_astar_stairs"
   ],
   "note": "All listed theorems hold for every input they quantify over."
  },
  {
   "property": "C140",
   "status": "proved",
   "theorems": [
    "Sqrid.C140_ucs_back",
    "Sqrid.C140_ucs_exact",
    "Sqrid.C140_ucs_found",
    "Sqrid.C140_ucs",
    "Sqrid.C140_astar"
   ],
   "note": "All listed theorems hold for every input they quantify over."
  },
  {
   "property": "C141",
   "status": "proved",
   "theorems": [
    "Sqrid.C141_ucs",
    "Sqrid.C141_astar",
    "Sqrid.C141_open"
   ],
   "note": "All listed theorems hold for every input they quantify over."
  },
  {
   "property": "C142",
   "status": "proved",
   "theorems": [
    "Sqrid.C142_first",
    "Sqrid.C142_step",
    "Sqrid.C142_exact"
   ],
   "note": "All listed theorems hold for every input they quantify over."
  },
  {
   "property": "C143",
   "status": "proved",
   "theorems": [
    "Sqrid.C143_bfs",
    "Sqrid.C143_same",
    "Sqrid.C143_open"
   ],
   "note": "All listed theorems hold for every input they quantify over."
  },
  {
   "property": "C144",
   "status": "proved",
   "theorems": [
    "Sqrid.C144_bfs",
    "Sqrid.C144_open",
    "Sqrid.C144_hill"
   ],
   "note": "All listed theorems hold for every input they quantify over."
  },
  {
   "property": "C145",
   "status": "proved",
   "theorems": [
    "Sqrid.C145_ucs",
    "Sqrid.C145_open"
   ],
   "note": "All listed theorems hold for every input they quantify over."
  },
  {
   "property": "C146",
   "status": "proved",
   "theorems": [
    "Sqrid.C146_bfs_rest",
    "Sqrid.C146_bfs_start",
    "Sqrid.C146_ucs_rest",
    "Sqrid.C146_ucs_rest_found",
    "Sqrid.C146_ucs_start",
    "Sqrid.C146_ucs_start_found",
    "Sqrid.C146_ucs_unit_rest",
    "Sqrid.C146_ucs_unit_start",
    "Sqrid.C146_astar_rest_fails",
    "Sqrid.C146_astar_rest_fails_diagonals",
    "Sqrid.C146_astar_start_fails",
    "Sqrid.C146_astar_start_fails_diagonals"
   ],
   "note": "All listed theorems hold for every input they quantify over."
  },
  {
   "property": "C147",
   "status": "proved",
   "theorems": [
    "Sqrid.C147_bfs",
    "Sqrid.C147_ucs",
    "Sqrid.C147_ucs_found",
    "Sqrid.C147_ucs_unit",
    "Sqrid.C147_astar_fails",
    "Sqrid.C147_astar_fails_diagonals"
   ],
   "note": "All listed theorems hold for every input they quantify over."
  },
  {
   "property": "C148",
   "status": "proved",
   "theorems": [
    "Sqrid.C148_bfs",
    "Sqrid.C148_ucs",
    "Sqrid.C148_ucs_costs",
    "Sqrid.C148_astar_fails",
    "Sqrid.C148_astar_never_arrives",
    "Sqrid.C148_ucs_never_arrives",
    "Sqrid.C148_ucs_never_arrives_diagonals"
   ],
   "note": "All listed theorems hold for every input they quantify over."
  },
  {
   "property": "C149",
   "status": "proved",
   "theorems": [
    "Sqrid.C149_areas",
    "Sqrid.C149_walls"
   ],
   "note": "All listed theorems hold for every input they quantify over."
  },
  {
   "property": "C150",
   "status": "proved",
   "theorems": [
    "Sqrid.C150_bfs",
    "Sqrid.C150_bfs_dest",
    "Sqrid.C150_ucs",
    "Sqrid.C150_ucs_first",
    "Sqrid.C150_ucs_last_fails",
    "Sqrid.C150_astar_first"
   ],
   "note": "All listed theorems hold for every input they quantify over."
  },
  {
   "property": "C151",
   "status": "proved",
   "theorems": [
    "Sqrid.C151_cheapest_goal"
   ],
   "note": "All listed theorems hold for every input they quantify over."
  },
  {
   "property": "C152",
   "status": "proved",
   "theorems": [
    "Sqrid.C152_field"
   ],
   "note": "All listed theorems hold for every input they quantify over."
  },
  {
   "property": "C153",
   "status": "proved",
   "theorems": [
    "Sqrid.C153_around",
    "Sqrid.C153_number",
    "Sqrid.C153_number_any",
    "Sqrid.C153_tally"
   ],
   "note": "All listed theorems hold for every input they quantify over."
  },
  {
   "property": "C154",
   "status": "proved",
   "theorems": [
    "Sqrid.C154_smallest",
    "Sqrid.C154_order",
    "Sqrid.C154_union",
    "Sqrid.C154_box",
    "Sqrid.C154_again"
   ],
   "note": "All listed theorems hold for every input they quantify over."
  },
  {
   "property": "C155",
   "status": "proved",
   "theorems": [
    "Sqrid.C155_automaton"
   ],
   "note": "All listed theorems hold for every input they quantify over."
  },
  {
   "property": "C156",
   "status": "proved",
   "theorems": [
    "Sqrid.C156_read",
    "Sqrid.C156_read_error",
    "Sqrid.C156_round_trip",
    "Sqrid.C156_letters",
    "Sqrid.C156_letters_lead",
    "Sqrid.C156_letters_ambiguous",
    "Sqrid.C156_words"
   ],
   "note": "All listed theorems hold for every input they quantify over."
  },
  {
   "property": "C157",
   "status": "proved",
   "theorems": [
    "Sqrid.C157_read",
    "Sqrid.C157_lines",
    "Sqrid.C157_round_trip",
    "Sqrid.C157_fill_panics"
   ],
   "note": "All listed theorems hold for every input they quantify over."
  },
  {
   "property": "C158",
   "status": "proved",
   "theorems": [
    "Sqrid.C158_parity",
    "Sqrid.C158_searches",
    "Sqrid.C158_exact",
    "Sqrid.C158_open",
    "Sqrid.C158_open_diagonals"
   ],
   "note": "All listed theorems hold for every input they quantify over."
  },
  {
   "property": "C159",
   "status": "proved",
   "theorems": [
    "Sqrid.C159_bfs",
    "Sqrid.C159_astar",
    "Sqrid.C159_ucs",
    "Sqrid.C159_any_error_differs",
    "Sqrid.C159_on_the_path",
    "Sqrid.C159_on_the_path_bfs",
    "Sqrid.C159_on_the_path_astar"
   ],
   "note": "All listed theorems hold for every input they quantify over."
  },
  {
   "property": "C160",
   "status": "proved",
   "theorems": [
    "Sqrid.C160_tour",
    "Sqrid.C160_bfs",
    "Sqrid.C160_nearest_first_differs"
   ],
   "note": "All listed theorems hold for every input they quantify over."
  },
  {
   "property": "C161",
   "status": "proved",
   "theorems": [
    "Sqrid.C161_count",
    "Sqrid.C161_unique",
    "Sqrid.C161_open"
   ],
   "note": "All listed theorems hold for every input they quantify over."
  },
  {
   "property": "C162",
   "status": "proved",
   "theorems": [
    "Sqrid.C162_seats",
    "Sqrid.C162_without_wall"
   ],
   "note": "All listed theorems hold for every input they quantify over."
  },
  {
   "property": "C163",
   "status": "proved",
   "theorems": [
    "Sqrid.C163_bfs",
    "Sqrid.C163_astar"
   ],
   "note": "All listed theorems hold for every input they quantify over."
  },
  {
   "property": "C164",
   "status": "proved",
   "theorems": [
    "Sqrid.C164_sums"
   ],
   "note": "All listed theorems hold for every input they quantify over."
  },
  {
   "property": "C165",
   "status": "proved",
   "theorems": [
    "Sqrid.C165_ray",
    "Sqrid.C165_back",
    "Sqrid.C165_words"
   ],
   "note": "All listed theorems hold for every input they quantify over."
  },
  {
   "property": "C166",
   "status": "proved",
   "theorems": [
    "Sqrid.C166_patrol",
    "Sqrid.C166_obstruct"
   ],
   "note": "All listed theorems hold for every input they quantify over."
  },
  {
   "property": "C167",
   "status": "proved",
   "theorems": [
    "Sqrid.C167_distance",
    "Sqrid.C167_layers",
    "Sqrid.C167_bfs",
    "Sqrid.C167_across"
   ],
   "note": "All listed theorems hold for every input they quantify over."
  },
  {
   "property": "C168",
   "status": "proved",
   "theorems": [
    "Sqrid.C168_all",
    "Sqrid.C168_iter",
    "Sqrid.C168_turn",
    "Sqrid.C168_around"
   ],
   "note": "All listed theorems hold for every input they quantify over."
  }
 ]
}