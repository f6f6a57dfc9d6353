import Verif.Props.Ucs
/-!
# Properties of traversals and searches in every position type: C107 – C111

Positions are any type that implements `PosT`: `Pos` and the tuples of integers, with negative coordinates and of any size. The collections are the hash and
the btree ones, which work with all of them. `fuel` bounds the number of calls to `next` in the model. The number of positions of a type can be very large, so
the bounds are given by `N`, above all the distances from the origin, or by a list `L` that has all the positions that can be reached.
-/

namespace Sqrid

-- Statements that do not mention a target are about a debug build for a 64-bit machine.
attribute [local instance] debug64

open Spec

/-- Every way of going around walls is finite in each position type. -/
theorem isDist_lt_cells {T : PosTy} {go : GoFn} (hgo : StaysIn T go) (D : Bool) {orig : P2} (ho : InGrid T orig) :
    ∀ q n, IsDist go D orig q n → n < T.nx * T.ny := fun _ _ h => isDist_lt hgo ho h

/-! ## C107 -/

/-- C107. From the empty set, after any sequence of insertions, removals and `set`s, the hash and the btree set contain exactly the positions last inserted. -/
theorem C107_sets (T : PosTy) (I : SetImpl) (hI : I = .hash ∨ I = .btree) (ops : List SetOp) (hops : ∀ op ∈ ops, InGrid T op.write.1) :
    ∃ s, ops.foldlM I.run I.default = .ok s ∧
      ∀ p, InGrid T p → I.contains s p = .ok ((lastWrite (ops.map SetOp.write) p).getD false) := by
  rcases hI with rfl | rfl
  · obtain ⟨s, f, h1, h2, h3⟩ := SetImpl.runs_sim (SetImpl.hash_sim T) ops hops
    exact ⟨s, h1, fun p hp => by rw [(SetImpl.hash_sim T).contains h2 hp, h3 p]⟩
  · obtain ⟨s, f, h1, h2, h3⟩ := SetImpl.runs_sim (SetImpl.btree_sim T) ops hops
    exact ⟨s, h1, fun p hp => by rw [(SetImpl.btree_sim T).contains h2 hp, h3 p]⟩

/-- C107. From `new(v)`, after any sequence of `set`s, the hash and the btree map return the last value set at the position, or `v`. -/
theorem C107_maps {Item : Type} (T : PosTy) (dflt : Item) (I : MapImpl Item) (hI : I = .hash dflt ∨ I = .btree dflt) (v : Item)
    (ws : List ((Int × Int) × Item)) (hws : ∀ w ∈ ws, InGrid T w.1) :
    ∃ s, I.sets (I.new v) ws = .ok s ∧ ∀ p, InGrid T p → I.get s p = .ok ((lastWrite ws p).getD v) := by
  rcases hI with rfl | rfl
  · obtain ⟨s, f, h1, h2, h3⟩ := MapImpl.sets_sim (MapImpl.hash_sim T dflt) v ((MapImpl.hash_sim T dflt).new v) ws hws
    exact ⟨s, h1, fun p hp => by rw [(MapImpl.hash_sim T dflt).get h2 hp, h3 p]⟩
  · obtain ⟨s, f, h1, h2, h3⟩ := MapImpl.sets_sim (MapImpl.btree_sim T dflt) v ((MapImpl.btree_sim T dflt).new v) ws hws
    exact ⟨s, h1, fun p hp => by rw [(MapImpl.btree_sim T dflt).get h2 hp, h3 p]⟩

theorem anyIter_eq {T : PosTy} {iter} (h : iter = Bf.iterHash ∨ iter = Bf.iterBtree) {D : Bool} {go : GoFn} (hgo : StaysIn T go) {orig : P2}
    (ho : InGrid T orig) (fuel : Nat) : iter D go orig fuel = Bf.iterAll SetImpl.ideal D go orig fuel := by
  rcases h with rfl | rfl
  · exact Bf.iterAll_ideal (SetImpl.hash_sim T) hgo D ho fuel
  · exact Bf.iterAll_ideal (SetImpl.btree_sim T) hgo D ho fuel

/-- C107. The items of the breadth-first traversal: the layer `k` has the positions at distance `k + 1`, each once, with a direction to a position one step
closer; the first one also has the origin if a step leads from the origin to itself. -/
theorem C107_layers (T : PosTy) (iter) (hiter : iter = Bf.iterHash ∨ iter = Bf.iterBtree) (D : Bool) (go : Int × Int → Dir → Option (Int × Int))
    (hgo : StaysIn T go) (orig : Int × Int) (ho : InGrid T orig) (N : Nat) (hN : ∀ q n, IsDist go D orig q n → n < N) (fuel : Nat) (hfuel : N < fuel) :
    ∃ ls, iter D go orig fuel = .ok ls ∧
      (∀ k layer, ls[k]? = some layer → layer ≠ [] ∧
        (∀ q, (∃ d, (q, d) ∈ layer) ↔
          IsDist go D orig q (k + 1) ∨ (k = 0 ∧ q = orig ∧ ∃ d, Allowed D d ∧ go orig d = some orig)) ∧
        (layer.map Prod.fst).Nodup ∧
        ∀ q d, (q, d) ∈ layer → Allowed D d ∧ ∃ p, IsDist go D orig p k ∧ go p (opposite d) = some q) ∧
      (∀ k q, ls.length ≤ k → ¬ IsDist go D orig q (k + 1)) := by
  obtain ⟨ls, h1, h2, h3, h4⟩ := Bf.iterAll_upto D hN fuel hfuel
  rw [anyIter_eq hiter hgo ho fuel]
  refine ⟨ls, h1, fun k l hl => ?_, fun k q hk hq => h3 k q hk (.inl hq)⟩
  obtain ⟨a, b⟩ := h2 k l hl
  exact ⟨a, b.mem, b.nodup, b.back⟩

/-- C107. The traversal yields each reachable position other than the origin once; the origin is yielded, also once, exactly if a step leads from it to itself. -/
theorem C107_visits (T : PosTy) (iter) (hiter : iter = Bf.iterHash ∨ iter = Bf.iterBtree) (D : Bool) (go : Int × Int → Dir → Option (Int × Int))
    (hgo : StaysIn T go) (orig : Int × Int) (ho : InGrid T orig) (N : Nat) (hN : ∀ q n, IsDist go D orig q n → n < N) (fuel : Nat) (hfuel : N < fuel) :
    ∃ ls, iter D go orig fuel = .ok ls ∧
      (∀ q, (∃ d, (q, d) ∈ ls.flatten) ↔
        (Reachable go D orig q ∧ q ≠ orig) ∨ (q = orig ∧ ∃ d, Allowed D d ∧ go orig d = some orig)) ∧
      (ls.flatten.map Prod.fst).Nodup := by
  obtain ⟨ls, h1, h2, h3, -⟩ := Bf.iterAll_upto D hN fuel hfuel
  rw [anyIter_eq hiter hgo ho fuel]
  obtain ⟨a, b, -⟩ := layers_flatten (fun k l hl => ⟨(h2 k l hl).2.mem, (h2 k l hl).2.nodup⟩) h3
  exact ⟨ls, h1, fun q => by rw [a q, inLayer_exists]; rfl, b⟩

/-- The steps within the square of the positions with coordinates from -2 to 2, around a wall. -/
def room : Int × Int → Dir → Option (Int × Int) := fun p d =>
  if (-2 ≤ (neighbour p d).1 ∧ (neighbour p d).1 ≤ 2) ∧ (-2 ≤ (neighbour p d).2 ∧ (neighbour p d).2 ≤ 2) ∧ neighbour p d ∉ [((0 : Int), (0 : Int)), (0, 1), (0, -1), (0, -2)]
  then some (neighbour p d) else none

/-- The positions of the square. -/
def roomCells : List (Int × Int) := [-2, -1, 0, 1, 2].flatMap fun x => [-2, -1, 0, 1, 2].map fun y => (x, y)

theorem room_adjacent (t : IntTy) (h : t.lo ≤ -2 ∧ 2 ≤ t.hi) : Adjacent (PosTy.tuple t) room := by
  intro p d q _ hg
  unfold room at hg
  split at hg
  · injection hg with hg
    subst hg
    rename_i h'
    refine ⟨?_, rfl⟩
    simp only [InGrid, PosTy.tuple, BTy.prim, BTy.MIN, BTy.MAX]
    omega
  · cases hg

theorem room_cells {D : Bool} {p q : Int × Int} (hp : p ∈ roomCells) (h : Reachable room D p q) : q ∈ roomCells := by
  obtain ⟨ds, hds⟩ := h
  obtain ⟨-, hds⟩ := hds
  induction ds generalizing p with
  | nil => injection hds with hds; exact hds ▸ hp
  | cons d ds ih =>
    simp only [follow] at hds
    cases hg : room p d with
    | none => rw [hg] at hds; cases hds
    | some r =>
      rw [hg] at hds
      refine ih ?_ hds
      unfold room at hg
      split at hg
      · rename_i h'
        injection hg with hg
        rw [← hg]
        obtain ⟨⟨a, b⟩, ⟨a', b'⟩, -⟩ := h'
        generalize neighbour p d = n at a b a' b' ⊢
        obtain ⟨x, y⟩ := n
        simp only at a b a' b'
        have hx : x = -2 ∨ x = -1 ∨ x = 0 ∨ x = 1 ∨ x = 2 := by omega
        have hy : y = -2 ∨ y = -1 ∨ y = 0 ∨ y = 1 ∨ y = 2 := by omega
        rcases hx with rfl | rfl | rfl | rfl | rfl <;> rcases hy with rfl | rfl | rfl | rfl | rfl <;> decide
      · cases hg

theorem room_dist (D : Bool) : ∀ q n, IsDist room D (-2, 0) q n → n < 25 := fun _ _ h =>
  isDist_lt_list (L := roomCells) (fun _ => room_cells (by decide)) h

example : Adjacent (PosTy.tuple .i32) room := room_adjacent .i32 (by decide)
example : StaysIn (PosTy.tuple .i32) room := (room_adjacent .i32 (by decide)).staysIn
example : InGrid (PosTy.tuple .i32) (-2, 0) := by decide
example : Bf.iterBtree true room (-2, 0) 26 = .ok [[((-2, -1), .S), ((-1, -1), .SW), ((-1, 0), .W), ((-1, 1), .NW), ((-2, 1), .N)],
    [((-2, -2), .S), ((-1, -2), .SW), ((0, 2), .NW), ((-1, 2), .N), ((-2, 2), .NE)], [((1, 1), .SW), ((1, 2), .W)],
    [((1, 0), .S), ((2, 0), .SW), ((2, 1), .W), ((2, 2), .NW)], [((1, -1), .S), ((2, -1), .SW)], [((1, -2), .S), ((2, -2), .SW)]] := by decide +kernel

/-! ## C108 -/

theorem returns_of {α : Type} [Target] {T : PosTy} (hT : T.WF) {orig dest : P2} (ho : InGrid T orig) (hd : InGrid T dest) {path : List Dir} {a : α}
    {g : Res (List Dir) → Out (Res α)} (h1 : g (.ok path) = .ok (.ok a)) (h2 : ∀ e, g (.error e) = .ok (.error e)) :
    ReturnsWay T orig dest path a (wayOut T orig dest (some path) >>= g) := by
  refine ⟨fun h => ?_, fun h => ?_, fun h hc => ?_, ?_⟩
  · rw [wayOut_fits hT ho hd h, Out.ok_bind]
    simp only
    split
    · exact h1
    · exact h2 _
  · have : wayStart T orig dest = .panic := by
      unfold wayStart
      rw [manhattan_eq hT ho hd, if_neg (by rw [Int.abs_eq_natAbs, Int.abs_eq_natAbs]; exact fun h' => h ⟨h'.1, h'.2.1⟩)]
      rfl
    unfold wayOut
    rw [this]
    rfl
  · rw [wayOut_panics hc hT ho hd h]
    rfl
  · rcases wayOut_cases hT ho hd (some path) with h | h | ⟨p, h, h'⟩
    · rw [h]; exact .inr (.inr rfl)
    · rw [h]; exact .inr (.inl (h2 _))
    · injection h with h
      rw [h', ← h]; exact .inl h1

theorem out_bind_ok {α : Type} (x : Out α) : (x >>= fun a => Out.ok a) = x := by cases x <;> rfl

theorem anyBfs_eq [Target] {T : PosTy} (hT : T.WF) {bfs} (h : bfs = Bf.pathHash T ∨ bfs = Bf.pathBtree T) {D : Bool} {go : GoFn} (hgo : StaysIn T go)
    {orig : P2} (ho : InGrid T orig) (found : P2 → Bool) (fuel : Nat) :
    bfs D go orig found fuel = Bf.searchPath T SetImpl.ideal (MapImpl.ideal none) D go orig found fuel := by
  rcases h with rfl | rfl
  · exact Bf.searchPath_ideal hT (SetImpl.hash_sim T) (MapImpl.hash_sim T none) hgo D ho found fuel
  · exact Bf.searchPath_ideal hT (SetImpl.btree_sim T) (MapImpl.btree_sim T none) hgo D ho found fuel

/-- C108, the full claim. -/
def C108_claim [Target] (T : PosTy) : Prop :=
  ∀ bfs, (bfs = Bf.pathHash T ∨ bfs = Bf.pathBtree T) → ∀ (D : Bool) (go : Int × Int → Dir → Option (Int × Int)), Adjacent T go → ∀ orig, InGrid T orig →
    ∀ found : Int × Int → Bool, found orig = false → ∀ N : Nat, (∀ q n, IsDist go D orig q n → n < N) → ∀ fuel : Nat, N < fuel →
    ((∃ q, found q = true ∧ Reachable go D orig q) → ∃ dest path, bfs D go orig found fuel = .ok (.ok (dest, path))) ∧
    ((¬ ∃ q, found q = true ∧ Reachable go D orig q) → bfs D go orig found fuel = .ok (.error .destinationUnreachable))

/-- C108. The outcome of the breadth-first search in every position type and build. If no goal other than the origin can be reached,
`DestinationUnreachable`; otherwise it finds a shortest path to one of the nearest goals, and what it returns is as `ReturnsWay` says: in particular, a path that
is returned is this one, and what can happen instead is a panic or `Loop`. -/
theorem C108_exact [Target] (T : PosTy) (hT : T.WF) (bfs) (hbfs : bfs = Bf.pathHash T ∨ bfs = Bf.pathBtree T) (D : Bool)
    (go : Int × Int → Dir → Option (Int × Int)) (hgo : Adjacent T go) (orig : Int × Int) (ho : InGrid T orig) (found : Int × Int → Bool)
    (N : Nat) (hN : ∀ q n, IsDist go D orig q n → n < N) (fuel : Nat) (hfuel : N < fuel) :
    ((∀ q, found q = true → q ≠ orig → ¬ Reachable go D orig q) ∧ bfs D go orig found fuel = .ok (.error .destinationUnreachable)) ∨
    ∃ dest path, found dest = true ∧ dest ≠ orig ∧ IsPath go D orig path dest ∧
      (∀ q ds, found q = true → q ≠ orig → IsPath go D orig ds q → path.length ≤ ds.length) ∧
      ReturnsWay T orig dest path (dest, path) (bfs D go orig found fuel) := by
  rw [anyBfs_eq hT hbfs hgo.staysIn ho]
  rcases Bf.searchPath_out hT D found hgo ho hN fuel hfuel with ⟨h1, h2⟩ | ⟨dest, n, path, h1, h2, h3, h4, h5, h6⟩
  · refine .inl ⟨fun q hq hne hr => ?_, h2⟩
    obtain ⟨n, hn⟩ := reachable_iff_isDist.1 hr
    cases n with
    | zero => exact hne (isDist_zero.1 hn)
    | succ n => rw [h1 n q hn] at hq; cases hq
  · refine .inr ⟨dest, path, h1, ?_, h4, fun q ds hq hne hds => ?_, ?_⟩
    · rintro rfl
      have := isDist_unique h2 (isDist_zero.2 rfl)
      omega
    · obtain ⟨m, hm⟩ := reachable_iff_isDist.1 ⟨ds, hds⟩
      have hle := hm.2 ds hds
      cases m with
      | zero => exact absurd (isDist_zero.1 hm) hne
      | succ m =>
        by_contra hlt
        have := h3 m q (by omega) hm
        rw [hq] at this
        cases this
    · rw [h6]
      exact returns_of hT ho (isDist_inGrid hgo.staysIn ho h2) rfl (fun _ => rfl)

/-- C108, when the arithmetic of the way back fits for each goal that can be reached, and no position is more than `(XMAX + 1)²` steps away, with `XMAX` the
largest x coordinate. What is missing: other cases, for which it is false (`C108_refuted_far`, `C108_never`); `C108_exact` covers them. -/
theorem C108_near_partial [Target] (T : PosTy) (hT : T.WF) (bfs) (hbfs : bfs = Bf.pathHash T ∨ bfs = Bf.pathBtree T) (D : Bool)
    (go : Int × Int → Dir → Option (Int × Int)) (hgo : Adjacent T go) (orig : Int × Int) (ho : InGrid T orig) (found : Int × Int → Bool)
    (hfo : found orig = false) (hway : ∀ q, found q = true → Reachable go D orig q → WayFits T orig q)
    (N : Nat) (hN : ∀ q n, IsDist go D orig q n → n < N) (hmax : (N : Int) ≤ (T.X.MAX + 1) * (T.X.MAX + 1) + 1) (fuel : Nat) (hfuel : N < fuel) :
    ((∃ q, found q = true ∧ Reachable go D orig q) → ∃ dest path, bfs D go orig found fuel = .ok (.ok (dest, path))) ∧
    ((¬ ∃ q, found q = true ∧ Reachable go D orig q) → bfs D go orig found fuel = .ok (.error .destinationUnreachable)) := by
  rcases C108_exact T hT bfs hbfs D go hgo orig ho found N hN fuel hfuel with ⟨h1, h2⟩ | ⟨dest, path, h1, h2, h3, h4, h5⟩
  · refine ⟨?_, fun _ => h2⟩
    rintro ⟨q, hq, hr⟩
    exact absurd hr (h1 q hq (by rintro rfl; rw [hfo] at hq; cases hq))
  · refine ⟨fun _ => ⟨dest, path, ?_⟩, fun h => absurd ⟨dest, h1, path, h3⟩ h⟩
    have hd : IsDist go D orig dest path.length := ⟨⟨path, h3, rfl⟩, fun ds hds => h4 dest ds h1 h2 hds⟩
    have := hN _ _ hd
    rw [h5.fits (hway dest h1 ⟨path, h3⟩), if_pos (by omega)]

/-- Where the arithmetic of the way back fits, for tuples of signed and unsigned integers of up to 32 bits: no coordinate may differ by more than the largest
value of its type. -/
theorem wayFits_tuple [Target] (t : IntTy) (ht : Target.wide = true ∧ 0 ≤ t.hi ∧ t.hi ≤ 2147483647 ∨ 0 ≤ t.hi ∧ t.hi ≤ 32767) (hlo : t.lo ≤ 0)
    (orig dest : Int × Int) (hx : (orig.1 - dest.1).natAbs ≤ t.hi) (hy : (orig.2 - dest.2).natAbs ≤ t.hi) : WayFits (PosTy.tuple t) orig dest := by
  have hlim : Target.wide = true → limit = 18446744073709551615 := by
    intro h
    simp only [limit, h]
    rfl
  have hlim' : 4294967295 ≤ limit := by
    simp only [limit]
    split <;> decide
  have hsq : (t.hi + 1) * (t.hi + 1) + 1 ≤ limit := by
    rcases ht with ⟨h1, h2, h3⟩ | ⟨h2, h3⟩
    · rw [hlim h1]; nlinarith
    · nlinarith
  have hroom : 8 * t.hi ≤ limit := by
    rcases ht with ⟨h1, h2, h3⟩ | ⟨h2, h3⟩
    · rw [hlim h1]; omega
    · omega
  refine ⟨⟨?_, ?_⟩, ⟨?_, ?_⟩, ?_, ?_, hsq⟩
  all_goals first
    | (show (_ : Int) ≤ _; simp only [l1, PosTy.tuple, BTy.prim, BTy.MIN, BTy.MAX]; omega)
    | (simp only [PosTy.tuple, BTy.prim]; omega)

-- the conditions of `C108_near_partial`, and a search with negative coordinates
example : ∀ q, (q.1 == 1) = true → Reachable room true (-2, 0) q → WayFits (PosTy.tuple .i32) (-2, 0) q := fun q _ h => by
  have hq := room_cells (by decide) h
  have : ∀ q ∈ roomCells, WayFits (PosTy.tuple .i32) (-2, 0) q := by decide
  exact this q hq
example : ((25 : Nat) : Int) ≤ ((PosTy.tuple .i32).X.MAX + 1) * ((PosTy.tuple .i32).X.MAX + 1) + 1 := by decide
example : Bf.pathHash (PosTy.tuple .i32) true room (-2, 0) (fun p => p.1 == 1) 26 = .ok (.ok ((1, 1), [.SE, .SE, .NE])) := by decide +kernel

/-- C108 is false for `(i8, i8)`, in every build: the search panics when the goal is 200 columns away. -/
theorem C108_refuted_far [Target] : ¬ C108_claim (PosTy.tuple .i8) := by
  intro h
  have hgo : Adjacent (PosTy.tuple .i8) (aroundWalls (PosTy.tuple .i8) []) := aroundWalls_adjacent _ _
  have ho : InGrid (PosTy.tuple .i8) (-100, 0) := by decide_target
  obtain ⟨h1, -⟩ := h (Bf.pathHash _) (.inl rfl) false _ hgo (-100, 0) ho (fun p => p == (100, 0)) (by decide) _ (isDist_lt_cells hgo.staysIn false ho) _
    (Nat.lt_succ_self _)
  have hr : Reachable (aroundWalls (PosTy.tuple .i8) []) false (-100, 0) (100, 0) :=
    ⟨List.replicate 200 .E, fun d hd => by rw [List.eq_of_mem_replicate hd]; exact .inr (by decide), by decide +kernel⟩
  obtain ⟨dest, path, h1⟩ := h1 ⟨(100, 0), by decide, hr⟩
  rcases C108_exact _ (by decide) (Bf.pathHash _) (.inl rfl) false _ hgo (-100, 0) ho (fun p => p == (100, 0)) _
    (isDist_lt_cells hgo.staysIn false ho) _ (Nat.lt_succ_self _) with ⟨h2, -⟩ | ⟨dest', path', h2, -, -, -, h3⟩
  · exact h2 (100, 0) (by decide) (by decide) hr
  · have e : dest' = (100, 0) := by simpa using h2
    subst e
    rw [h3.far (by decide)] at h1
    cases h1

/-- The tuples for which the number of times around the loop of the way back is out of range: of `u32`, `u64` and `u128`, and on 32-bit machines also of `u16`
and `i32`. -/
def TooWide [Target] (t : IntTy) : Prop := t ∈ [IntTy.u32, .u64, .u128] ∨ Target.wide = false ∧ t ∈ [IntTy.u16, .i32]

theorem tooWide_wf [Target] {t : IntTy} (ht : TooWide t) : (PosTy.tuple t).WF := by
  simp only [TooWide, List.mem_cons, List.not_mem_nil, or_false] at ht
  rcases ht with (rfl | rfl | rfl) | ⟨-, rfl | rfl⟩ <;> decide

theorem waySteps_tooWide [Target] {t : IntTy} (ht : TooWide t) : waySteps (PosTy.tuple t) = .panic ∨ waySteps (PosTy.tuple t) = .ok 1 := by
  rename_i T
  obtain ⟨c, w⟩ := T
  simp only [TooWide, List.mem_cons, List.not_mem_nil, or_false] at ht
  rcases ht with (rfl | rfl | rfl) | ⟨rfl, rfl | rfl⟩ <;> revert c <;> try revert w
  all_goals decide

/-- C108. With tuples of these types the search never returns a path, in no build. -/
theorem C108_never [Target] (t : IntTy) (ht : TooWide t) (bfs) (hbfs : bfs = Bf.pathHash (PosTy.tuple t) ∨ bfs = Bf.pathBtree (PosTy.tuple t)) (D : Bool)
    (go : Int × Int → Dir → Option (Int × Int)) (hgo : Adjacent (PosTy.tuple t) go) (orig : Int × Int) (ho : InGrid (PosTy.tuple t) orig)
    (found : Int × Int → Bool) (N : Nat) (hN : ∀ q n, IsDist go D orig q n → n < N) (fuel : Nat) (hfuel : N < fuel) (dest : Int × Int) (path : List Dir) :
    bfs D go orig found fuel ≠ .ok (.ok (dest, path)) := by
  rw [anyBfs_eq (tooWide_wf ht) hbfs hgo.staysIn ho]
  rcases Bf.searchPath_out (tooWide_wf ht) D found hgo ho hN fuel hfuel with ⟨-, h2⟩ | ⟨dest', n, path', -, h2, -, -, h5, h6⟩
  · rw [h2]; intro h; cases h
  · rw [h6]
    unfold wayOut
    rcases wayStart_cases (tooWide_wf ht) ho (isDist_inGrid hgo.staysIn ho h2) with h | h <;> rw [h]
    · rcases waySteps_tooWide ht with h | h <;> rw [h]
      · intro h; cases h
      · simp only [Out.ok_bind, if_neg (show ¬ path'.length < 1 by omega)]
        intro h; cases h
    · intro h; cases h

-- two steps away, and `Loop` in a release build
example : TooWide .u32 := .inl (by decide)
example : Bf.pathHash (PosTy.tuple .u32) false (aroundWalls (PosTy.tuple .u32) []) (0, 0) (fun p => p == (2, 0)) 10 = .panic := by decide +kernel
example : @Bf.pathHash release64 (PosTy.tuple .u32) false (aroundWalls (PosTy.tuple .u32) []) (0, 0) (fun p => p == (2, 0)) 10 = .ok (.error .loop) := by
  decide +kernel

/-! ## C109 -/

theorem anyAstar_eq [Target] {T : PosTy} (hT : T.WF) {astar} (h : astar = Astar.pathHash T ∨ astar = Astar.pathBtree T) {D : Bool} {go : GoFn}
    (hgo : StaysIn T go) {orig dest : P2} (ho : InGrid T orig) (hd : InGrid T dest) (fuel : Nat) :
    astar D go orig dest fuel = Astar.searchPath T (MapImpl.ideal none) (MapImpl.ideal 0) D go orig dest fuel := by
  rcases h with rfl | rfl
  · exact Astar.searchPath_ideal hT (MapImpl.hash_sim T 0) (MapImpl.hash_sim T none) hgo D ho hd fuel
  · exact Astar.searchPath_ideal hT (MapImpl.btree_sim T 0) (MapImpl.btree_sim T none) hgo D ho hd fuel

theorem Spec.SumsFit.astarFits [Target] {T : PosTy} (hT : T.WF) {go : GoFn} (hgo : StaysIn T go) {D : Bool} {orig dest : P2} (ho : InGrid T orig)
    (hd : InGrid T dest) {n : Nat} (h : SumsFit T go D orig dest n) : AstarFits T go D orig dest n := by
  intro q hq
  obtain ⟨h1, h2, h3⟩ := h q hq
  obtain ⟨ds, hds⟩ := hq
  rw [← Int.abs_eq_natAbs] at h1 h2
  exact ⟨C15_manhattan_fits T hT q dest (isPath_inGrid hgo ho hds) hd h1 h2 (by omega), by rw [usizeMax_eq]; exact h3⟩

theorem Astar.searchPath_panic [Target] {T : PosTy} {go : GoFn} {D : Bool} {orig dest : P2} {fuel : Nat}
    (hmm : Astar.searchMapmov T (MapImpl.ideal none) (MapImpl.ideal 0) D go orig dest fuel = .panic) :
    Astar.searchPath T (MapImpl.ideal none) (MapImpl.ideal 0) D go orig dest fuel = .panic := by
  unfold Astar.searchPath
  rw [hmm]
  rfl

/-- A step without overflow, or a panic. -/
theorem astar_step [Target] {T : PosTy} (hT : T.WF) {go : GoFn} (hgo : StaysIn T go) {D : Bool} {orig dest : P2} (ho : InGrid T orig) (hd : InGrid T dest)
    {L : List P2} (hL : ∀ q, Reachable go D orig q → q ∈ L) (hc : Target.checks = true ∨ SumsFit T go D orig dest L.length) (fuel : Nat) :
    (¬ SumsFit T go D orig dest L.length ∧ Astar.searchMapmov T (MapImpl.ideal none) (MapImpl.ideal 0) D go orig dest fuel = .panic) ∨
    Astar.searchMapmov T (MapImpl.ideal none) (MapImpl.ideal 0) D go orig dest fuel =
      BSt.search (unitCost go) (fun q => l1 q dest) D dest fuel (BSt.init usizeMax orig) (fun _ => none) := by
  by_cases h : SumsFit T go D orig dest L.length
  · exact .inr (Astar.searchMapmov_fits D hL (h.astarFits hT hgo ho hd) fuel)
  · rcases Astar.searchMapmov_cases (hc.resolve_right h) hT hgo ho hd D fuel with h' | h'
    · exact .inl ⟨h, h'⟩
    · exact .inr h'

/-- C109, the full claim. -/
def C109_claim [Target] (T : PosTy) : Prop :=
  ∀ astar, (astar = Astar.pathHash T ∨ astar = Astar.pathBtree T) → ∀ (go : Int × Int → Dir → Option (Int × Int)), Adjacent T go →
    ∀ orig dest, InGrid T orig → InGrid T dest → ∀ L : List (Int × Int), (∀ q, Reachable go false orig q → q ∈ L) →
    ∀ fuel : Nat, 8 * L.length + 1 < fuel →
    (Reachable go false orig dest → ∃ path, astar false go orig dest fuel = .ok (.ok path)) ∧
    (¬ Reachable go false orig dest → astar false go orig dest fuel = .ok (.error .destinationUnreachable))

/-- C109. The outcome of A* without diagonals in every position type: a panic, only if some sum does not fit; or `DestinationUnreachable`, only if the
destination cannot be reached in fewer steps than a `usize` can count; or what `ReturnsWay` says about a path to the destination, which is a shortest one if no
detour is needed. -/
theorem C109_straight_exact [Target] (T : PosTy) (hT : T.WF) (astar) (hastar : astar = Astar.pathHash T ∨ astar = Astar.pathBtree T)
    (go : Int × Int → Dir → Option (Int × Int)) (hgo : Adjacent T go) (orig dest : Int × Int) (ho : InGrid T orig) (hd : InGrid T dest)
    (L : List (Int × Int)) (hL : ∀ q, Reachable go false orig q → q ∈ L) (hc : Target.checks = true ∨ SumsFit T go false orig dest L.length)
    (fuel : Nat) (hfuel : 8 * L.length + 1 < fuel) :
    (¬ SumsFit T go false orig dest L.length ∧ astar false go orig dest fuel = .panic) ∨
    ((∀ ds, IsPath go false orig ds dest → limit ≤ ds.length) ∧ astar false go orig dest fuel = .ok (.error .destinationUnreachable)) ∨
    ∃ path, IsPath go false orig path dest ∧ path.length < L.length ∧
      (∀ straight, IsPath go false orig straight dest → (straight.length : Int) = l1 orig dest → path.length = straight.length) ∧
      ReturnsWay T orig dest path path (astar false go orig dest fuel) := by
  rw [anyAstar_eq hT hastar hgo.staysIn ho hd]
  rcases astar_step hT hgo.staysIn ho hd hL hc fuel with ⟨h1, h2⟩ | heq
  · exact .inl ⟨h1, Astar.searchPath_panic h2⟩
  · right
    rcases Astar.searchPath_straight_out hT hgo ho hL fuel hfuel heq with ⟨h1, h2⟩ | ⟨path, h1, h2, h3, h4⟩
    · refine .inl ⟨fun ds hds => ?_, h2⟩
      rw [← usizeMax_eq]
      exact h1 ds ds.length (isCostPath_unit.2 ⟨hds, rfl⟩)
    · refine .inr ⟨path, h1, h2, fun st hst hl => ?_, ?_⟩
      · exact h3 st.length ⟨⟨st, hst, rfl⟩, fun ds hds => by have := l1_le_path hgo ho hds; omega⟩ hl
      · rw [h4, ← out_bind_ok (wayOut T orig dest (some path))]
        exact returns_of hT ho hd rfl (fun _ => rfl)

/-- C109. The outcome of A* with diagonals in every position type: as without, with the exception that the path need not be a shortest one, and that the recorded
directions can go around in a circle, which gives `Loop` or a panic. -/
theorem C109_diagonals_exact [Target] (T : PosTy) (hT : T.WF) (astar) (hastar : astar = Astar.pathHash T ∨ astar = Astar.pathBtree T) (D : Bool)
    (go : Int × Int → Dir → Option (Int × Int)) (hgo : Adjacent T go) (orig dest : Int × Int) (ho : InGrid T orig) (hd : InGrid T dest)
    (L : List (Int × Int)) (hL : ∀ q, Reachable go D orig q → q ∈ L) (hc : Target.checks = true ∨ SumsFit T go D orig dest L.length)
    (fuel : Nat) (hfuel : 2 * (L.length * L.length) + 1 < fuel) :
    (¬ SumsFit T go D orig dest L.length ∧ astar D go orig dest fuel = .panic) ∨
    ((∀ ds, IsPath go D orig ds dest → limit ≤ ds.length) ∧ astar D go orig dest fuel = .ok (.error .destinationUnreachable)) ∨
    (∃ path, IsPath go D orig path dest ∧ path.length < L.length ∧ ReturnsWay T orig dest path path (astar D go orig dest fuel)) ∨
    (Reachable go D orig dest ∧ (WayFits T orig dest → astar D go orig dest fuel = .ok (.error .loop)) ∧
      (astar D go orig dest fuel = .ok (.error .loop) ∨ astar D go orig dest fuel = .panic)) := by
  rw [anyAstar_eq hT hastar hgo.staysIn ho hd]
  rcases astar_step hT hgo.staysIn ho hd hL hc fuel with ⟨h1, h2⟩ | heq
  · exact .inl ⟨h1, Astar.searchPath_panic h2⟩
  · right
    rcases Astar.searchPath_out hT D hgo ho hL fuel hfuel heq with ⟨h1, h2⟩ | ⟨h1, o, h2, h3⟩
    · refine .inl ⟨fun ds hds => ?_, h2⟩
      rw [← usizeMax_eq]
      exact h1 ds ds.length (isCostPath_unit.2 ⟨hds, rfl⟩)
    · right
      rw [h3]
      cases o with
      | some path =>
        obtain ⟨a, b⟩ := h2 path rfl
        refine .inl ⟨path, a, b, ?_⟩
        rw [← out_bind_ok (wayOut T orig dest (some path))]
        exact returns_of hT ho hd rfl (fun _ => rfl)
      | none =>
        refine .inr ⟨h1, fun h => wayOut_fits hT ho hd h none, ?_⟩
        rcases wayOut_cases hT ho hd none with h | h | ⟨p, h, -⟩
        · exact .inr h
        · exact .inl h
        · cases h

/-- C109, when the sums and the way back fit and at most `(XMAX + 1)²` positions other than the origin can be reached, with `XMAX` the largest x coordinate. What is missing: other
cases, for which it is false (`C109_refuted_far`, `C109_never`); `C109_straight_exact` covers them. -/
theorem C109_near_partial [Target] (T : PosTy) (hT : T.WF) (astar) (hastar : astar = Astar.pathHash T ∨ astar = Astar.pathBtree T)
    (go : Int × Int → Dir → Option (Int × Int)) (hgo : Adjacent T go) (orig dest : Int × Int) (ho : InGrid T orig) (hd : InGrid T dest)
    (hway : WayFits T orig dest) (L : List (Int × Int)) (hL : ∀ q, Reachable go false orig q → q ∈ L) (hsums : SumsFit T go false orig dest L.length)
    (hmax : (L.length : Int) ≤ (T.X.MAX + 1) * (T.X.MAX + 1) + 1) (fuel : Nat) (hfuel : 8 * L.length + 1 < fuel) :
    (Reachable go false orig dest → ∃ path, astar false go orig dest fuel = .ok (.ok path)) ∧
    (¬ Reachable go false orig dest → astar false go orig dest fuel = .ok (.error .destinationUnreachable)) := by
  rcases C109_straight_exact T hT astar hastar go hgo orig dest ho hd L hL (.inr hsums) fuel hfuel with ⟨h1, -⟩ | ⟨h1, h2⟩ | ⟨path, h1, h2, -, h3⟩
  · exact absurd hsums h1
  · refine ⟨?_, fun _ => h2⟩
    rintro hr
    obtain ⟨n, hn⟩ := reachable_iff_isDist.1 hr
    have hlt := isDist_lt_list hL hn
    obtain ⟨⟨ds, hds, hlen⟩, -⟩ := hn
    have := h1 ds hds
    have := (hsums orig ⟨[], isPath_nil⟩).2.2
    have hl : 0 ≤ l1 orig dest := by simp only [l1]; omega
    omega
  · exact ⟨fun _ => ⟨path, by rw [h3.fits hway, if_pos (by omega)]⟩, fun h => absurd ⟨path, h1⟩ h⟩

/-- C109 is false for `(i8, i8)`, in every build: the search panics when the destination is 200 columns away. -/
theorem C109_refuted_far [Target] : ¬ C109_claim (PosTy.tuple .i8) := by
  intro h
  have e : ∀ n, Astar.pathHash (PosTy.tuple .i8) false (aroundWalls (PosTy.tuple .i8) []) (-100, 0) (100, 0) (n + 1) = .panic := by
    intro n
    rename Target => t
    obtain ⟨c, w⟩ := t
    cases c <;> cases w <;> rfl
  have hgo : Adjacent (PosTy.tuple .i8) (aroundWalls (PosTy.tuple .i8) []) := aroundWalls_adjacent _ _
  have ho : InGrid (PosTy.tuple .i8) (-100, 0) := by decide_target
  obtain ⟨h1, -⟩ := h (Astar.pathHash _) (.inl rfl) _ hgo (-100, 0) (100, 0) ho (by decide_target) (allPositions (PosTy.tuple .i8) true)
    (fun q ⟨ds, hds⟩ => PosTy.mem_allPositions.2 (isPath_inGrid hgo.staysIn ho hds))
    (8 * (allPositions (PosTy.tuple .i8) true).length + 1 + 1) (Nat.lt_add_one _)
  have hr : Reachable (aroundWalls (PosTy.tuple .i8) []) false (-100, 0) (100, 0) :=
    ⟨List.replicate 200 .E, fun d hd => by rw [List.eq_of_mem_replicate hd]; exact .inr (by decide), by decide +kernel⟩
  obtain ⟨path, h1⟩ := h1 hr
  rw [e] at h1
  cases h1

theorem camefrom_length [Target] {T : PosTy} (hT : T.WF) {map : P2 → Option Dir} {orig dest : P2} (hdest : InGrid T dest) {path : List Dir}
    (h : camefromIntoPath T (MapImpl.ideal none) map orig dest = .ok (.ok path)) : ∃ k, waySteps T = .ok k ∧ path.length < k := by
  rw [camefromIntoPath_eq, show (MapImpl.ideal none).get map dest = .ok (map dest) from rfl] at h
  cases h1 : wayStart T orig dest with
  | ok =>
    rw [h1, Out.ok_bind, Out.ok_bind] at h
    cases hm : map dest with
    | none => rw [hm] at h; injection h with h; cases h
    | some d =>
      rw [hm] at h
      simp only at h
      cases h2 : waySteps T with
      | ok k =>
        rw [h2, Out.ok_bind] at h
        rcases camefromLoop_spec hT (MapImpl.ideal none) map map orig (fun p hp => rfl) k dest [] hdest with ⟨path', a1, a2, a3⟩ | ⟨n, a1, a2, a3⟩ | ⟨a1, a2, a3⟩
        · rw [a3, List.append_nil] at h
          injection h with h
          injection h with h
          exact ⟨k, rfl, h ▸ a2⟩
        · rw [a3] at h; injection h with h; cases h
        · rw [a3] at h; injection h with h; cases h
      | panic => rw [h2] at h; cases h
      | ub => rw [h2] at h; cases h
      | timeout => rw [h2] at h; cases h
  | panic => rw [h1] at h; cases h
  | ub => rw [h1] at h; cases h
  | timeout => rw [h1] at h; cases h

theorem camefrom_never [Target] {t : IntTy} (ht : TooWide t) {map : P2 → Option Dir} {orig dest : P2} (hd : InGrid (PosTy.tuple t) dest)
    (hne : orig ≠ dest) (path : List Dir) : camefromIntoPath (PosTy.tuple t) (MapImpl.ideal none) map orig dest ≠ .ok (.ok path) := by
  intro h
  obtain ⟨k, h1, h2⟩ := camefrom_length (tooWide_wf ht) hd h
  have h3 := camefrom_arrives (tooWide_wf ht) hd h
  have hk : k = 1 := by
    rcases waySteps_tooWide ht with h | h <;> rw [h] at h1
    · cases h1
    · injection h1 with h1; exact h1.symm
  have : path = [] := List.eq_nil_of_length_eq_zero (by omega)
  subst this
  generalize e : ([] : List Dir) = l at h3
  cases h3 with
  | here => exact hne rfl
  | step => simp at e

/-- C109. With tuples of the types of `TooWide` the search never returns a path with steps, in no build. -/
theorem C109_never [Target] (t : IntTy) (ht : TooWide t) (astar) (hastar : astar = Astar.pathHash (PosTy.tuple t) ∨ astar = Astar.pathBtree (PosTy.tuple t))
    (D : Bool) (go : Int × Int → Dir → Option (Int × Int)) (hgo : StaysIn (PosTy.tuple t) go) (orig dest : Int × Int) (ho : InGrid (PosTy.tuple t) orig)
    (hd : InGrid (PosTy.tuple t) dest) (hne : orig ≠ dest) (fuel : Nat) (path : List Dir) : astar D go orig dest fuel ≠ .ok (.ok path) := by
  rw [anyAstar_eq (tooWide_wf ht) hastar hgo ho hd]
  unfold Astar.searchPath
  generalize Astar.searchMapmov (PosTy.tuple t) (MapImpl.ideal none) (MapImpl.ideal 0) D go orig dest fuel = x
  intro h
  cases x with
  | ok r =>
    cases r with
    | error e => injection h with h; cases h
    | ok f => exact camefrom_never ht hd hne path h
  | panic => cases h
  | ub => cases h
  | timeout => cases h

-- the conditions of `C109_near_partial`, and a search with negative coordinates
theorem room_sums (D : Bool) : SumsFit (PosTy.tuple .i32) room D (-2, 0) (2, 0) roomCells.length := fun q h => by
  have hq := room_cells (by decide) h
  have : ∀ q ∈ roomCells, (PosTy.tuple .i32).X.Valid (q.1 - 2).natAbs ∧ (PosTy.tuple .i32).Y.Valid (q.2 - 0).natAbs ∧
    (roomCells.length : Int) + l1 q (2, 0) ≤ limit := by decide
  exact this q hq
example : WayFits (PosTy.tuple .i32) (-2, 0) (2, 0) := by decide
example : ∀ q, Reachable room false (-2, 0) q → q ∈ roomCells := fun _ => room_cells (by decide)
example : Astar.pathHash (PosTy.tuple .i32) false room (-2, 0) (2, 0) 202 = .ok (.ok [.E, .S, .S, .E, .E, .E, .N, .N]) := by decide +kernel
example : Astar.pathHash (PosTy.tuple .i8) false room (-2, 0) (2, 0) 202 = .ok (.ok [.E, .S, .S, .E, .E, .E, .N, .N]) := by decide +kernel
example : Astar.pathBtree (PosTy.tuple .i32) true room (-2, 0) (2, 0) 1252 = .ok (.ok [.SE, .SE, .NE, .NE]) := by decide +kernel

/-! ## C110 -/

theorem anyUcs_eq [Target] {T : PosTy} (hT : T.WF) {ucs} (h : ucs = Ucs.pathHash T ∨ ucs = Ucs.pathBtree T) {D : Bool} {go : WGo}
    (hgo : StaysIn T (dropCost go)) {orig dest : P2} (ho : InGrid T orig) (hd : InGrid T dest) (fuel : Nat) :
    ucs D go orig dest fuel = Ucs.searchPath T (MapImpl.ideal none) (MapImpl.ideal 0) D go orig dest fuel := by
  rcases h with rfl | rfl
  · exact Ucs.searchPath_ideal hT (MapImpl.hash_sim T 0) (MapImpl.hash_sim T none) hgo D ho hd fuel
  · exact Ucs.searchPath_ideal hT (MapImpl.btree_sim T 0) (MapImpl.btree_sim T none) hgo D ho hd fuel

/-- C110, the full claim. -/
def C110_claim [Target] (T : PosTy) : Prop :=
  ∀ ucs, (ucs = Ucs.pathHash T ∨ ucs = Ucs.pathBtree T) → ∀ (D : Bool) (go : Int × Int → Dir → Option ((Int × Int) × Int)), Adjacent T (dropCost go) →
    UsizeCosts go → ∀ orig dest, InGrid T orig → InGrid T dest → BelowLimit go D orig →
    ∀ L : List (Int × Int), (∀ q, Reachable (dropCost go) D orig q → q ∈ L) → ∀ fuel : Nat, 8 * L.length + 1 < fuel →
    (Reachable (dropCost go) D orig dest → ∃ path, ucs D go orig dest fuel = .ok (.ok path)) ∧
    (¬ Reachable (dropCost go) D orig dest → ucs D go orig dest fuel = .ok (.error .destinationUnreachable))

/-- C110. The outcome of the uniform-cost search in every position type: a panic, only if some sum of costs is out of range; or `DestinationUnreachable`, only if
the destination cannot be reached for a cost below the limit of `usize`; or what `ReturnsWay` says about a path to the destination, which is one of the cheapest if
the cost of a step depends only on the position it leads to. -/
theorem C110_exact [Target] (T : PosTy) (hT : T.WF) (ucs) (hucs : ucs = Ucs.pathHash T ∨ ucs = Ucs.pathBtree T) (D : Bool)
    (go : Int × Int → Dir → Option ((Int × Int) × Int)) (hgo : Adjacent T (dropCost go)) (hw : UsizeCosts go) (orig dest : Int × Int)
    (ho : InGrid T orig) (hd : InGrid T dest) (hc : Target.checks = true ∨ NoOverflow go D orig)
    (L : List (Int × Int)) (hL : ∀ q, Reachable (dropCost go) D orig q → q ∈ L) (fuel : Nat) (hfuel : 8 * L.length + 1 < fuel) :
    (¬ NoOverflow go D orig ∧ ucs D go orig dest fuel = .panic) ∨
    ((∀ ds n, IsCostPath go D orig ds dest n → limit ≤ n) ∧ ucs D go orig dest fuel = .ok (.error .destinationUnreachable)) ∨
    ∃ path, IsPath (dropCost go) D orig path dest ∧ path.length < L.length ∧
      (EnterCost go → ∃ n, IsCostPath go D orig path dest n ∧ ∀ ds m, IsCostPath go D orig ds dest m → n ≤ m) ∧
      ReturnsWay T orig dest path path (ucs D go orig dest fuel) := by
  rw [anyUcs_eq hT hucs hgo.staysIn ho hd]
  rcases Ucs.searchPath_out (dest := dest) hT hgo hw.nonNeg hc ho hL fuel hfuel with h | ⟨h1, h2⟩ | ⟨⟨n, h1, -⟩, path, h2, h3, h4, h5⟩
  · exact .inl h
  · refine .inr (.inl ⟨fun ds n hds => ?_, h2⟩)
    obtain ⟨m, hm⟩ := isMinCost_exists hw.nonNeg ⟨ds, hds.1⟩
    have := h1 m hm
    have := hm.2 ds n hds
    omega
  · refine .inr (.inr ⟨path, h2, h3, fun he => ⟨n, h4 he n h1, h1.2⟩, ?_⟩)
    rw [h5, ← out_bind_ok (wayOut T orig dest (some path))]
    exact returns_of hT ho hd rfl (fun _ => rfl)

/-- C110, when the way back fits and at most `(XMAX + 1)²` positions other than the origin can be reached, with `XMAX` the largest x coordinate. What is
missing: other cases, for which it is false (`C110_refuted_far`, `C110_never`); `C110_exact` covers them. -/
theorem C110_near_partial [Target] (T : PosTy) (hT : T.WF) (ucs) (hucs : ucs = Ucs.pathHash T ∨ ucs = Ucs.pathBtree T) (D : Bool)
    (go : Int × Int → Dir → Option ((Int × Int) × Int)) (hgo : Adjacent T (dropCost go)) (hw : UsizeCosts go) (orig dest : Int × Int)
    (ho : InGrid T orig) (hd : InGrid T dest) (hb : BelowLimit go D orig) (hway : WayFits T orig dest)
    (L : List (Int × Int)) (hL : ∀ q, Reachable (dropCost go) D orig q → q ∈ L) (hmax : (L.length : Int) ≤ (T.X.MAX + 1) * (T.X.MAX + 1) + 1)
    (fuel : Nat) (hfuel : 8 * L.length + 1 < fuel) :
    (Reachable (dropCost go) D orig dest → ∃ path, ucs D go orig dest fuel = .ok (.ok path)) ∧
    (¬ Reachable (dropCost go) D orig dest → ucs D go orig dest fuel = .ok (.error .destinationUnreachable)) := by
  rcases C110_exact T hT ucs hucs D go hgo hw orig dest ho hd (.inr hb.noOverflow) L hL fuel hfuel with ⟨h1, -⟩ | ⟨h1, h2⟩ | ⟨path, h1, h2, -, h3⟩
  · exact absurd hb.noOverflow h1
  · refine ⟨fun hr => ?_, fun _ => h2⟩
    obtain ⟨n, hn⟩ := isMinCost_exists hw.nonNeg hr
    have := hb.lt hw.nonNeg hn
    obtain ⟨⟨ds, hds⟩, -⟩ := hn
    have := h1 ds n hds
    omega
  · exact ⟨fun _ => ⟨path, by rw [h3.fits hway, if_pos (by omega)]⟩, fun h => absurd ⟨path, h1⟩ h⟩

/-- C110 is false for `(i8, i8)`, in every build: the search panics when the destination is 200 columns away. -/
theorem C110_refuted_far [Target] : ¬ C110_claim (PosTy.tuple .i8) := by
  intro h
  have hgo : Adjacent (PosTy.tuple .i8) (dropCost (stepCosts (PosTy.tuple .i8) [] fun _ _ => 0)) := stepCosts_adjacent _ _ _
  have hw : UsizeCosts (stepCosts (PosTy.tuple .i8) [] fun _ _ => 0) := stepCosts_usize _ _ fun _ _ => ⟨by decide, by have := limit_pos; omega⟩
  have ho : InGrid (PosTy.tuple .i8) (-100, 0) := by decide_target
  have hL : ∀ q, Reachable (dropCost (stepCosts (PosTy.tuple .i8) [] fun _ _ => 0)) false (-100, 0) q → q ∈ allPositions (PosTy.tuple .i8) true :=
    fun q ⟨ds, hds⟩ => PosTy.mem_allPositions.2 (isPath_inGrid hgo.staysIn ho hds)
  have hb : BelowLimit (stepCosts (PosTy.tuple .i8) [] fun _ _ => 0) false (-100, 0) := by
    refine belowLimit_of_small (T := PosTy.tuple .i8) hgo.staysIn ho (B := 0) (by decide) (fun p d q w hg => ?_) (by have := limit_pos; omega)
    simp only [stepCosts] at hg
    cases ha : aroundWalls (PosTy.tuple .i8) [] p d with
    | none => rw [ha] at hg; cases hg
    | some r =>
      rw [ha] at hg
      injection hg with hg
      injection hg with _ hg
      omega
  obtain ⟨h1, -⟩ := h (Ucs.pathHash _) (.inl rfl) false _ hgo hw (-100, 0) (100, 0) ho (by decide_target) hb _ hL
    (8 * (allPositions (PosTy.tuple .i8) true).length + 1 + 1) (Nat.lt_add_one _)
  have hr : Reachable (dropCost (stepCosts (PosTy.tuple .i8) [] fun _ _ => 0)) false (-100, 0) (100, 0) := by
    rw [dropCost_stepCosts]
    exact ⟨List.replicate 200 .E, fun d hd => by rw [List.eq_of_mem_replicate hd]; exact .inr (by decide), by decide +kernel⟩
  obtain ⟨path, h1⟩ := h1 hr
  rcases C110_exact _ (by decide) (Ucs.pathHash _) (.inl rfl) false _ hgo hw (-100, 0) (100, 0) ho (by decide_target) (.inr hb.noOverflow) _ hL
    (8 * (allPositions (PosTy.tuple .i8) true).length + 1 + 1) (Nat.lt_add_one _) with ⟨-, h2⟩ | ⟨-, h2⟩ | ⟨path', -, -, -, h2⟩
  · rw [h1] at h2; cases h2
  · rw [h1] at h2; cases h2
  · rw [h2.far (by decide)] at h1
    cases h1

/-- C110. With tuples of the types of `TooWide` the search never returns a path with steps, in no build. -/
theorem C110_never [Target] (t : IntTy) (ht : TooWide t) (ucs) (hucs : ucs = Ucs.pathHash (PosTy.tuple t) ∨ ucs = Ucs.pathBtree (PosTy.tuple t))
    (D : Bool) (go : Int × Int → Dir → Option ((Int × Int) × Int)) (hgo : StaysIn (PosTy.tuple t) (dropCost go)) (orig dest : Int × Int)
    (ho : InGrid (PosTy.tuple t) orig) (hd : InGrid (PosTy.tuple t) dest) (hne : orig ≠ dest) (fuel : Nat) (path : List Dir) :
    ucs D go orig dest fuel ≠ .ok (.ok path) := by
  rw [anyUcs_eq (tooWide_wf ht) hucs hgo ho hd]
  unfold Ucs.searchPath
  generalize Ucs.searchMapmov (MapImpl.ideal none) (MapImpl.ideal 0) D go orig dest fuel = x
  intro h
  cases x with
  | ok r =>
    cases r with
    | error e => injection h with h; cases h
    | ok f => exact camefrom_never ht hd hne path h
  | panic => cases h
  | ub => cases h
  | timeout => cases h

/-- Steps within the square, with a more expensive row. -/
def roomCosts : Int × Int → Dir → Option ((Int × Int) × Int) := fun p d => (room p d).map fun q => (q, if q.2 = 2 then 7 else 1)

theorem dropCost_roomCosts : dropCost roomCosts = room := by
  funext p d
  simp only [dropCost, roomCosts]
  cases room p d <;> rfl

theorem roomCosts_le {p : Int × Int} {d : Dir} {q : Int × Int} {w : Int} (h : roomCosts p d = some (q, w)) : 0 ≤ w ∧ w ≤ 7 := by
  unfold roomCosts at h
  cases hr : room p d with
  | none => rw [hr] at h; cases h
  | some r =>
    rw [hr] at h
    simp only [Option.map_some, Option.some.injEq, Prod.mk.injEq] at h
    obtain ⟨-, rfl⟩ := h
    split <;> omega

-- the conditions of `C110_exact` and `C110_near_partial`, and a search with negative coordinates
example : Adjacent (PosTy.tuple .i32) (dropCost roomCosts) := by rw [dropCost_roomCosts]; exact room_adjacent .i32 (by decide)
example : UsizeCosts roomCosts := fun p d q w h => ⟨(roomCosts_le h).1, Int.le_trans (roomCosts_le h).2 (by decide)⟩
example : BelowLimit roomCosts true (-2, 0) :=
  belowLimit_of_dist (N := 25) (by rw [dropCost_roomCosts]; exact room_dist true) (B := 7) (by decide) (fun _ _ _ _ h => (roomCosts_le h).2) (by decide)
example : EnterCost roomCosts := by
  intro u u' d d' q w w' h h'
  simp only [roomCosts, Option.map_eq_some_iff, Prod.mk.injEq] at h h'
  obtain ⟨_, -, rfl, rfl⟩ := h
  obtain ⟨_, -, rfl, rfl⟩ := h'
  rfl
example : Ucs.pathHash (PosTy.tuple .i32) true roomCosts (-2, 0) (2, 0) 202 = .ok (.ok [.SE, .SE, .NE, .NE]) := by decide +kernel
example : @Ucs.pathHash release64 (PosTy.tuple .u32) false (stepCosts (PosTy.tuple .u32) [] fun _ _ => 1) (3, 3) (3, 4) 202 = .ok (.error .loop) := by
  decide +kernel

/-! ## C111 -/

/-- C111. A path returned for a map that holds `map` leads from `orig` to `dest`, in every position type and build. -/
theorem C111_real_path [Target] (T : PosTy) (hT : T.WF) (M : MapImpl (Option Dir)) (hM : M = .hash none ∨ M = .btree none)
    (ws : List ((Int × Int) × Option Dir)) (hws : ∀ w ∈ ws, InGrid T w.1) (s : M.σ) (hs : M.sets M.default ws = .ok s)
    (orig dest : Int × Int) (hdest : InGrid T dest) (path : List Dir) (h : camefromIntoPath T M s orig dest = .ok (.ok path)) :
    ∃ map : Int × Int → Option Dir, (∀ p, map p = (lastWrite ws p).getD none) ∧ Arrives T map orig dest path ∧
      ∃ l, walkPath T orig path = some l ∧ l.length = path.length ∧ l.getLast?.getD orig = dest ∧
        ∀ (i : Nat) (h : i < l.length) (h' : i < path.length), map l[i] = some (opposite path[i]) := by
  obtain ⟨R, hR⟩ : ∃ R, M.Sim T none R := by
    rcases hM with rfl | rfl
    · exact ⟨_, MapImpl.hash_sim T none⟩
    · exact ⟨_, MapImpl.btree_sim T none⟩
  obtain ⟨s', f, h1, h2, h3⟩ := MapImpl.sets_sim hR none hR.default ws hws
  rw [hs] at h1
  injection h1 with h1
  subst h1
  rw [camefrom_ideal hR h2 hT hdest] at h
  have hA := camefrom_arrives hT hdest h
  exact ⟨f, h3, hA, hA.walk hT hdest⟩

theorem way_fits [Target] {T : PosTy} (hT : T.WF) {orig dest : P2} (ho : InGrid T orig) (hd : InGrid T dest) (h : WayFits T orig dest) :
    ∃ k, wayStart T orig dest = .ok () ∧ waySteps T = .ok k ∧ ∀ n : Nat, n < k ↔ (n : Int) ≤ (T.X.MAX + 1) * (T.X.MAX + 1) := by
  have key := fun n => wayOut_fits hT ho hd h (some (List.replicate n Dir.N))
  unfold wayOut at key
  rcases wayStart_cases hT ho hd with h1 | h1
  · rcases waySteps_cases T with ⟨k, h2⟩ | h2
    · refine ⟨k, h1, h2, fun n => ?_⟩
      have := key n
      rw [h1, h2] at this
      simp only [Out.ok_bind, List.length_replicate] at this
      injection this with this
      constructor
      · intro hlt
        rw [if_pos hlt] at this
        by_contra hgt
        rw [if_neg hgt] at this
        cases this
      · intro hle
        rw [if_pos hle] at this
        by_contra hgt
        rw [if_neg hgt] at this
        cases this
    · have := key 0
      rw [h1, h2] at this
      cases this
  · have := key 0
    rw [h1] at this
    cases this

/-- C111. What is returned for any map in every position type, exactly, if the arithmetic fits; the search for `orig` is given up after `(XMAX + 1)²` steps, with
`XMAX` the largest x coordinate. If it does not fit, and overflow is checked, a panic, or `DestinationUnreachable` if the map has no direction at `dest`. -/
theorem C111_exact [Target] (T : PosTy) (hT : T.WF) (M : MapImpl (Option Dir)) (hM : M = .hash none ∨ M = .btree none)
    (ws : List ((Int × Int) × Option Dir)) (hws : ∀ w ∈ ws, InGrid T w.1) (s : M.σ) (hs : M.sets M.default ws = .ok s)
    (orig dest : Int × Int) (horig : InGrid T orig) (hdest : InGrid T dest) :
    ∃ map : Int × Int → Option Dir, (∀ p, map p = (lastWrite ws p).getD none) ∧
      (WayFits T orig dest → ∃ r, camefromIntoPath T M s orig dest = .ok r ∧
        (r = .error .destinationUnreachable ↔ map dest = none) ∧
        (∀ path, r = .ok path ↔ map dest ≠ none ∧ Arrives T map orig dest path ∧ (path.length : Int) ≤ (T.X.MAX + 1) * (T.X.MAX + 1)) ∧
        (r = .error .invalidMovement ↔ map dest ≠ none ∧ ∃ n : Nat, GetsStuck T map orig dest n ∧ (n : Int) ≤ (T.X.MAX + 1) * (T.X.MAX + 1)) ∧
        (r = .error .loop ↔ map dest ≠ none ∧ (∀ path, Arrives T map orig dest path → (T.X.MAX + 1) * (T.X.MAX + 1) < (path.length : Int)) ∧
          ∀ n : Nat, GetsStuck T map orig dest n → (T.X.MAX + 1) * (T.X.MAX + 1) < (n : Int))) ∧
      (¬ WayFits T orig dest → Target.checks = true → camefromIntoPath T M s orig dest = .panic ∨
        map dest = none ∧ camefromIntoPath T M s orig dest = .ok (.error .destinationUnreachable)) := by
  obtain ⟨R, hR⟩ : ∃ R, M.Sim T none R := by
    rcases hM with rfl | rfl
    · exact ⟨_, MapImpl.hash_sim T none⟩
    · exact ⟨_, MapImpl.btree_sim T none⟩
  obtain ⟨s', f, h1, h2, h3⟩ := MapImpl.sets_sim hR none hR.default ws hws
  rw [hs] at h1
  injection h1 with h1
  subst h1
  rw [camefrom_ideal hR h2 hT hdest]
  clear h2 hR hs
  refine ⟨f, h3, fun hway => ?_, fun hway hc => ?_⟩
  · obtain ⟨k, hst, hsp, hk⟩ := way_fits hT horig hdest hway
    rw [camefromIntoPath_eq, hst, Out.ok_bind, show (MapImpl.ideal none).get f dest = .ok (f dest) from rfl, Out.ok_bind]
    cases hm : f dest with
    | none => exact ⟨_, rfl, by simp, by simp, by simp, by simp⟩
    | some d =>
      simp only
      rw [hsp, Out.ok_bind]
      generalize (T.X.MAX + 1) * (T.X.MAX + 1) = K at hk ⊢
      rcases camefromLoop_spec hT (MapImpl.ideal none) f f orig (fun p hp => rfl) k dest [] hdest with ⟨path', a1, a2, a3⟩ | ⟨n, a1, a2, a3⟩ | ⟨a1, a2, a3⟩
      · rw [List.append_nil] at a3
        refine ⟨_, a3, by simp, fun path => ⟨fun h => ?_, fun h => ?_⟩, ?_, ?_⟩
        · injection h with h
          subst h
          exact ⟨by simp, a1, (hk _).1 a2⟩
        · rw [a1.unique h.2.1]
        · simp only [reduceCtorEq, false_iff]
          rintro ⟨-, n, hn, -⟩
          exact a1.not_stuck _ hn
        · simp only [reduceCtorEq, false_iff]
          rintro ⟨-, h, -⟩
          have := h _ a1
          have := (hk _).1 a2
          omega
      · refine ⟨_, a3, by simp, fun path => ?_, ?_, ?_⟩
        · simp only [reduceCtorEq, false_iff]
          rintro ⟨-, h, -⟩
          exact h.not_stuck _ a1
        · exact ⟨fun _ => ⟨by simp, n, a1, (hk n).1 a2⟩, fun _ => rfl⟩
        · simp only [reduceCtorEq, Except.error.injEq, false_iff]
          rintro ⟨-, -, h⟩
          have := h _ a1
          have := (hk n).1 a2
          omega
      · refine ⟨_, a3, by simp, fun path => ?_, ?_, ?_⟩
        · simp only [reduceCtorEq, false_iff]
          rintro ⟨-, h, h'⟩
          have := a1 _ h
          have := (hk _).2 h'
          omega
        · simp only [reduceCtorEq, Except.error.injEq, false_iff]
          rintro ⟨-, n, h, h'⟩
          have := a2 _ h
          have := (hk _).2 h'
          omega
        · refine ⟨fun _ => ⟨by simp, fun path h => ?_, fun n h => ?_⟩, fun _ => rfl⟩
          · by_contra hlt
            have := (hk path.length).2 (by omega)
            have := a1 _ h
            omega
          · by_contra hlt
            have := (hk n).2 (by omega)
            have := a2 _ h
            omega
  · have h := wayOut_panics hc hT horig hdest hway none
    rw [camefromIntoPath_eq, show (MapImpl.ideal none).get f dest = .ok (f dest) from rfl]
    unfold wayOut at h
    rcases wayStart_cases hT horig hdest with h1 | h1
    · rw [h1, Out.ok_bind] at h
      rcases waySteps_cases T with ⟨k, h2⟩ | h2
      · rw [h2] at h; cases h
      · rw [h1, Out.ok_bind, Out.ok_bind, h2]
        cases f dest with
        | none => exact .inr ⟨rfl, rfl⟩
        | some d => exact .inl rfl
    · rw [h1]; exact .inl rfl

example : (do let s ← (MapImpl.hash none).sets (MapImpl.hash none).default [(((-2, 2) : Int × Int), some Dir.W), ((-3, 2), some .NW)]
              camefromIntoPath (PosTy.tuple .i16) (MapImpl.hash none) s (-4, 1) (-2, 2)) = .ok (.ok [.SE, .E]) := by decide
example : WayFits (PosTy.tuple .i16) (-4, 1) (-2, 2) := by decide

end Sqrid
