import Verif.Spec.Queue
import Verif.Proofs.BestFirst
/-! The binary heap of std is a correct priority queue. -/

namespace Sqrid

open Spec

/-! ### The order of the entries -/

theorem clockNumber_eq (d : Dir) : clockNumber d = d.toIdx := by cases d <;> rfl

theorem clockNumber_inj {a b : Dir} (h : clockNumber a = clockNumber b) : a = b := by cases a <;> cases b <;> first | rfl | cases h

theorem Heap.lt_iff (a b : Entry) : Heap.lt a b = true ↔ Earlier b a := by
  obtain ⟨p, ⟨x, y⟩, d⟩ := a
  obtain ⟨p', ⟨x', y'⟩, d'⟩ := b
  simp only [Heap.lt, PosTy.lt, Dir.lt, Earlier, clockNumber_eq, Bool.or_eq_true, Bool.and_eq_true, decide_eq_true_eq, beq_iff_eq, Prod.mk.injEq]
  constructor
  · rintro (h | ⟨h1, (h | ⟨h2, h3⟩) | ⟨⟨h2, h3⟩, h4⟩⟩)
    · exact .inl h
    · exact .inr ⟨h1.symm, .inl h⟩
    · exact .inr ⟨h1.symm, .inr ⟨h2, .inl h3⟩⟩
    · exact .inr ⟨h1.symm, .inr ⟨h2, .inr ⟨h3, h4⟩⟩⟩
  · rintro (h | ⟨h1, h | ⟨h2, h3 | ⟨h3, h4⟩⟩⟩)
    · exact .inl h
    · exact .inr ⟨h1.symm, .inl (.inl h)⟩
    · exact .inr ⟨h1.symm, .inl (.inr ⟨h2, h3⟩)⟩
    · exact .inr ⟨h1.symm, .inr ⟨⟨h2, h3⟩, h4⟩⟩

theorem Earlier.total {a b : Entry} (h : ¬ Earlier a b) (h' : ¬ Earlier b a) : a = b := by
  obtain ⟨p, ⟨x, y⟩, d⟩ := a
  obtain ⟨p', ⟨x', y'⟩, d'⟩ := b
  simp only [Earlier] at h h'
  obtain rfl : p = p' := by omega
  obtain rfl : x = x' := by omega
  obtain rfl : y = y' := by omega
  obtain rfl : d = d' := clockNumber_inj (by omega)
  rfl

theorem Earlier.asymm {a b : Entry} (h : Earlier a b) : ¬ Earlier b a := by
  simp only [Earlier] at *; omega

theorem Earlier.trans_not {a b c : Entry} (h : ¬ Earlier b a) (h' : ¬ Earlier c b) : ¬ Earlier c a := by
  simp only [Earlier] at *; omega

theorem BinHeap.le_iff (a b : Entry) : BinHeap.le a b = true ↔ ¬ Earlier a b := by
  rw [← Heap.lt_iff, BinHeap.le]; simp

namespace BinHeap

/-! ### Arrays -/

def v (l : List Entry) (i : Nat) : Entry := l.getD i (0, (0, 0), Dir.N)

theorem v_eq {l : List Entry} {i : Nat} (h : i < l.length) : v l i = l[i] := by simp [v, List.getD, h]

theorem at_eq {l : List Entry} {i : Nat} (h : i < l.length) : at? l i = .ok (v l i) := by simp [at?, v_eq h, h]

theorem v_set {l : List Entry} {i : Nat} (h : i < l.length) (e : Entry) (j : Nat) : v (l.set i e) j = if j = i then e else v l j := by
  unfold v
  by_cases hj : j = i
  · subst hj; simp [List.getD, h]
  · rw [if_neg hj]; simp [List.getD, List.getElem?_set_ne (Ne.symm hj)]

/-- `a` is not to be taken after `b`. -/
def Le (a b : Entry) : Prop := ¬ Earlier a b

theorem Le.trans {a b c : Entry} (h : Le a b) (h' : Le b c) : Le a c := Earlier.trans_not h' h

theorem Le.of_not {a b : Entry} (h : ¬ Le a b) : Le b a := Earlier.asymm (not_not.1 h)

theorem Le.rfl {a : Entry} : Le a a := fun h => Earlier.asymm h h

/-- Every element is at most its parent, except perhaps the one at `pos`. -/
def HeapBut (l : List Entry) (pos : Nat) : Prop := ∀ i, 0 < i → i < l.length → i ≠ pos → Le (v l i) (v l ((i - 1) / 2))

def IsHeap (l : List Entry) : Prop := ∀ i, 0 < i → i < l.length → Le (v l i) (v l ((i - 1) / 2))

/-- The children of `pos` are at most its parent. -/
def Grand (l : List Entry) (pos : Nat) : Prop := 0 < pos → ∀ i, 0 < i → i < l.length → (i - 1) / 2 = pos → Le (v l i) (v l ((pos - 1) / 2))

theorem IsHeap.root {l : List Entry} (h : IsHeap l) : ∀ i, i < l.length → Le (v l i) (v l 0) := by
  intro i
  induction i using Nat.strongRecOn with
  | ind i ih =>
    intro hi
    by_cases h0 : i = 0
    · subst h0; exact Le.rfl
    · exact (h i (by omega) hi).trans (ih _ (by omega) (by omega))

theorem swap_perm {data : List Entry} {i j : Nat} (hi : i < data.length) (hj : j < data.length) (hij : j ≠ i) (e : Entry) :
    ((data.set i (v data j)).set j e).Perm (data.set i e) := by
  have h := List.set_set_perm (as := data.set i e) (i := i) (j := j) (by simpa using hi) (by simpa using hj)
  have e1 : (data.set i e)[j]'(by simpa using hj) = v data j := by
    rw [List.getElem_set_ne (Ne.symm hij), v_eq hj]
  have e2 : (data.set i e)[i]'(by simpa using hi) = e := by simp
  rw [e1, e2, List.set_set] at h
  exact h

theorem siftUp_ok (elt : Entry) : ∀ (n : Nat) (data : List Entry) (pos : Nat), pos ≤ n → pos < data.length →
    HeapBut (data.set pos elt) pos → Grand (data.set pos elt) pos →
    ∃ r, siftUp elt n data pos = .ok r ∧ r.Perm (data.set pos elt) ∧ IsHeap r := by
  intro n
  induction n with
  | zero =>
    intro data pos hn hlen hA _
    refine ⟨_, rfl, List.Perm.refl _, fun i hi hl => hA i hi hl (by omega)⟩
  | succ n ih =>
    intro data pos hn hlen hA hB
    unfold siftUp
    by_cases h0 : pos > 0
    swap
    · rw [if_neg h0]
      exact ⟨_, rfl, List.Perm.refl _, fun i hi hl => hA i hi hl (by omega)⟩
    have hpl : (pos - 1) / 2 < data.length := by omega
    have hpp : (pos - 1) / 2 ≠ pos := by omega
    rw [if_pos h0]
    simp only
    rw [at_eq hpl, Out.ok_bind]
    by_cases hle : le elt (v data ((pos - 1) / 2)) = true
    · rw [if_pos hle]
      refine ⟨_, rfl, List.Perm.refl _, fun i hi hl => ?_⟩
      by_cases hip : i = pos
      · subst hip
        rw [v_set hlen, if_pos rfl, v_set hlen, if_neg hpp]
        exact (le_iff _ _).1 hle
      · exact hA i hi hl hip
    · rw [if_neg hle]
      have hgt : Le (v data ((pos - 1) / 2)) elt := Le.of_not fun h => hle ((le_iff _ _).2 h)
      have hlen' : (data.set pos (v data ((pos - 1) / 2))).length = data.length := by simp
      have hval : ∀ j, v ((data.set pos (v data ((pos - 1) / 2))).set ((pos - 1) / 2) elt) j =
          if j = (pos - 1) / 2 then elt else if j = pos then v data ((pos - 1) / 2) else v data j := fun j => by
        rw [v_set (by rw [hlen']; exact hpl), v_set hlen]
      have hold : ∀ j, v (data.set pos elt) j = if j = pos then elt else v data j := fun j => v_set hlen _ _
      have hL : ∀ l : List Entry, l = (data.set pos (v data ((pos - 1) / 2))).set ((pos - 1) / 2) elt → l.length = data.length := fun l h => by
        rw [h]; simp
      have hA' : ∀ i, 0 < i → i < data.length → i ≠ pos → Le (if i = pos then elt else v data i) (if (i - 1) / 2 = pos then elt else v data ((i - 1) / 2)) := by
        intro i h1 h2 h3
        have := hA i h1 (by simpa using h2) h3
        rwa [hold, hold] at this
      have hB' : ∀ i, 0 < i → i < data.length → (i - 1) / 2 = pos → Le (v data i) (v data ((pos - 1) / 2)) := by
        intro i h1 h2 h3
        have := hB h0 i h1 (by simpa using h2) h3
        rwa [hold, hold, if_neg (by omega), if_neg hpp] at this
      suffices hs : HeapBut ((data.set pos (v data ((pos - 1) / 2))).set ((pos - 1) / 2) elt) ((pos - 1) / 2) ∧
          Grand ((data.set pos (v data ((pos - 1) / 2))).set ((pos - 1) / 2) elt) ((pos - 1) / 2) by
        obtain ⟨r, h1, h2, h3⟩ := ih (data.set pos (v data ((pos - 1) / 2))) ((pos - 1) / 2) (by omega) (by rw [hlen']; exact hpl) hs.1 hs.2
        exact ⟨r, h1, h2.trans (swap_perm hlen hpl hpp elt), h3⟩
      constructor
      · intro i hi hl hne
        rw [hL _ rfl] at hl
        rw [hval, hval, if_neg hne]
        by_cases hip : i = pos
        · subst hip
          rw [if_pos rfl, if_pos rfl]; exact hgt
        · rw [if_neg hip]
          have := hA' i hi hl hip
          rw [if_neg hip] at this
          by_cases h5 : (i - 1) / 2 = (pos - 1) / 2
          · rw [if_pos h5]
            rw [h5, if_neg hpp] at this
            exact this.trans hgt
          · rw [if_neg h5]
            by_cases h6 : (i - 1) / 2 = pos
            · rw [if_pos h6]; exact hB' i hi hl h6
            · rw [if_neg h6]; rwa [if_neg h6] at this
      · intro hp0 i hi hl hpar
        rw [hL _ rfl] at hl
        rw [hval, hval, if_neg (by omega), if_neg (by omega : ((pos - 1) / 2 - 1) / 2 ≠ (pos - 1) / 2),
          if_neg (by omega : ((pos - 1) / 2 - 1) / 2 ≠ pos)]
        have hup := hA' ((pos - 1) / 2) hp0 hpl hpp
        rw [if_neg hpp, if_neg (by omega)] at hup
        by_cases hip : i = pos
        · subst hip; rw [if_pos rfl]; exact hup
        · rw [if_neg hip]
          have := hA' i hi hl hip
          rw [if_neg hip, hpar, if_neg hpp] at this
          exact this.trans hup

/-- Every element is at most its parent, except perhaps the one at `pos` and its children. -/
def HeapBut2 (l : List Entry) (pos : Nat) : Prop :=
  ∀ i, 0 < i → i < l.length → i ≠ pos → (i - 1) / 2 ≠ pos → Le (v l i) (v l ((i - 1) / 2))

/-- The hole at `pos` moves down to its child `child`, which is not less than the other one. -/
theorem down_step {elt : Entry} {data : List Entry} {pos child : Nat} (hlen : pos < data.length) (hc : child < data.length)
    (hch : (child - 1) / 2 = pos) (hc0 : 0 < child) (hmax : ∀ i, 0 < i → i < data.length → (i - 1) / 2 = pos → Le (v data i) (v data child))
    (hA : HeapBut2 (data.set pos elt) pos) (hB : Grand (data.set pos elt) pos) :
    HeapBut2 ((data.set pos (v data child)).set child elt) child ∧ Grand ((data.set pos (v data child)).set child elt) child := by
  have hcp : child ≠ pos := by omega
  have hval : ∀ j, v ((data.set pos (v data child)).set child elt) j = if j = child then elt else if j = pos then v data child else v data j := fun j => by
    rw [v_set (by simpa using hc), v_set hlen]
  have hold : ∀ j, v (data.set pos elt) j = if j = pos then elt else v data j := fun j => v_set hlen _ _
  have hA' : ∀ i, 0 < i → i < data.length → i ≠ pos → (i - 1) / 2 ≠ pos → Le (v data i) (v data ((i - 1) / 2)) := by
    intro i h1 h2 h3 h4
    have := hA i h1 (by simpa using h2) h3 h4
    rwa [hold, hold, if_neg h3, if_neg h4] at this
  constructor
  · intro i hi hl hne hne2
    have hl : i < data.length := by simpa using hl
    rw [hval, hval, if_neg hne, if_neg hne2]
    by_cases hip : i = pos
    · subst hip
      rw [if_pos rfl, if_neg (by omega)]
      have := hB hi child hc0 (by simpa using hc) hch
      rwa [hold, hold, if_neg hcp, if_neg (by omega)] at this
    · rw [if_neg hip]
      by_cases h5 : (i - 1) / 2 = pos
      · rw [if_pos h5]; exact hmax i hi hl h5
      · rw [if_neg h5]; exact hA' i hi hl hip h5
  · intro _ i hi hl hpar
    have hl : i < data.length := by simpa using hl
    rw [hval, hval, if_neg (by omega), if_neg (by omega), if_neg (by omega), if_pos hch]
    have := hA' i hi hl (by omega) (by omega)
    rwa [hpar] at this

theorem siftUp_bottom (elt : Entry) {data : List Entry} {pos : Nat} (hlen : pos < data.length) (hlast : data.length ≤ 2 * pos + 1)
    (hA : HeapBut2 (data.set pos elt) pos) :
    ∃ r, siftUp elt pos data pos = .ok r ∧ r.Perm (data.set pos elt) ∧ IsHeap r := by
  refine siftUp_ok elt pos data pos (Nat.le_refl _) hlen (fun i hi hl hne => ?_) (fun _ i hi hl hpar => ?_)
  · have : i < data.length := by simpa using hl
    exact hA i hi hl hne (by omega)
  · have : i < data.length := by simpa using hl
    omega

theorem siftDown_ok (elt : Entry) : ∀ (n : Nat) (data : List Entry) (pos : Nat), data.length ≤ n + pos → pos < data.length →
    HeapBut2 (data.set pos elt) pos → Grand (data.set pos elt) pos →
    ∃ r, siftDown elt n data pos = .ok r ∧ r.Perm (data.set pos elt) ∧ IsHeap r := by
  intro n
  induction n with
  | zero => intro data pos h1 h2; omega
  | succ n ih =>
    intro data pos hn hlen hA hB
    unfold siftDown
    simp only
    by_cases h2 : 2 * pos + 1 ≤ data.length - 2
    · have ha : 2 * pos + 1 < data.length := by omega
      have hb : 2 * pos + 1 + 1 < data.length := by omega
      rw [if_pos h2, at_eq ha, Out.ok_bind, at_eq hb, Out.ok_bind]
      have hstep : ∀ child, child = 2 * pos + 1 ∨ child = 2 * pos + 1 + 1 →
          (∀ i, i = 2 * pos + 1 ∨ i = 2 * pos + 1 + 1 → Le (v data i) (v data child)) →
          ∃ r, siftDown elt n (data.set pos (v data child)) child = .ok r ∧ r.Perm (data.set pos elt) ∧ IsHeap r := by
        intro child hc hmax
        have hcl : child < data.length := by omega
        obtain ⟨h3, h4⟩ := down_step hlen hcl (by omega) (by omega) (fun i h1 h2 h3 => hmax i (by omega)) hA hB
        obtain ⟨r, h5, h6, h7⟩ := ih (data.set pos (v data child)) child (by simp; omega) (by simpa using hcl) h3 h4
        exact ⟨r, h5, h6.trans (swap_perm hlen hcl (by omega) elt), h7⟩
      by_cases hle : le (v data (2 * pos + 1)) (v data (2 * pos + 1 + 1)) = true
      · rw [if_pos hle]
        refine hstep _ (.inr rfl) ?_
        rintro i (rfl | rfl)
        · exact (le_iff _ _).1 hle
        · exact Le.rfl
      · rw [if_neg hle]
        refine hstep _ (.inl rfl) ?_
        rintro i (rfl | rfl)
        · exact Le.rfl
        · exact Le.of_not fun h => hle ((le_iff _ _).2 h)
    · rw [if_neg h2]
      by_cases h3 : 2 * pos + 1 = data.length - 1
      · have hcl : 2 * pos + 1 < data.length := by omega
        rw [if_pos h3, at_eq hcl, Out.ok_bind]
        obtain ⟨h4, -⟩ := down_step hlen hcl (by omega) (by omega) (fun i h1 h2 h3 => by
          obtain rfl : i = 2 * pos + 1 := by omega
          exact Le.rfl) hA hB
        obtain ⟨r, h5, h6, h7⟩ := siftUp_bottom elt (data := data.set pos (v data (2 * pos + 1))) (pos := 2 * pos + 1) (by simpa using hcl) (by simp; omega) h4
        exact ⟨r, h5, h6.trans (swap_perm hlen hcl (by omega) elt), h7⟩
      · rw [if_neg h3]
        exact siftUp_bottom elt hlen (by omega) hA

theorem push_ok (data : List Entry) (e : Entry) (h : IsHeap data) : ∃ r, push data e = .ok r ∧ IsHeap r ∧ r.Perm (e :: data) := by
  have hs : (data ++ [e]).set data.length e = data ++ [e] := by simp
  have hv : ∀ i, i < data.length → v (data ++ [e]) i = v data i := fun i hi => by
    rw [v_eq (by simp; omega), v_eq hi, List.getElem_append_left hi]
  obtain ⟨r, h1, h2, h3⟩ := siftUp_ok e data.length (data ++ [e]) data.length (Nat.le_refl _) (by simp)
    (fun i hi hl hne => by
      rw [hs] at hl ⊢
      have : i < data.length := by simp at hl; omega
      rw [hv i this, hv _ (by omega)]
      exact h i hi this)
    (fun _ i hi hl hpar => by rw [hs] at hl; simp at hl; omega)
  rw [hs] at h2
  exact ⟨r, h1, h3, h2.trans (List.perm_append_singleton _ _)⟩

theorem pop_ok (data : List Entry) (h : IsHeap data) :
    (data = [] ∧ pop data = .ok (none, data)) ∨
    ∃ e r, pop data = .ok (some e, r) ∧ IsHeap r ∧ data.Perm (e :: r) ∧ ∀ x ∈ data, Le x e := by
  rcases List.eq_nil_or_concat data with rfl | ⟨l, item, rfl⟩
  · exact .inl ⟨rfl, rfl⟩
  · right
    rw [List.concat_eq_append] at *
    have hroot := h.root
    unfold pop
    rw [List.getLast?_concat, List.dropLast_concat]
    simp only
    cases l with
    | nil => exact ⟨item, [], rfl, fun i h1 h2 => absurd h2 (Nat.not_lt_zero _), List.Perm.refl _, fun x hx => by
        rw [List.nil_append, List.mem_singleton] at hx; rw [hx]; exact Le.rfl⟩
    | cons first rest =>
      have hv : ∀ i, i < (first :: rest).length → v ((first :: rest) ++ [item]) i = v (first :: rest) i := fun i hi => by
        rw [v_eq (by rw [List.length_append]; omega), v_eq hi, List.getElem_append_left hi]
      obtain ⟨r, h1, h2, h3⟩ := siftDown_ok item (first :: rest).length (first :: rest) 0 (by omega) (by simp)
        (fun i hi hl hne hne2 => by
          have hl : i < (first :: rest).length := by simpa using hl
          rw [v_set (by simp), if_neg hne, v_set (by simp), if_neg hne2, ← hv i hl, ← hv _ (by omega)]
          exact h i hi (by rw [List.length_append]; omega))
        (fun h0 => absurd h0 (Nat.lt_irrefl _))
      refine ⟨first, r, by simp only; rw [h1, Out.ok_bind], h3, ?_, fun x hx => ?_⟩
      · rw [List.set_cons_zero] at h2
        rw [List.cons_append]
        exact ((List.perm_append_singleton _ _).trans h2.symm).cons _
      · obtain ⟨i, hi, rfl⟩ := List.getElem_of_mem hx
        have := hroot i hi
        rwa [v_eq hi] at this

end BinHeap

theorem binaryHeap_isQueue : IsQueue .binaryHeap BinHeap.IsHeap id where
  empty := ⟨fun i _ h => absurd h (Nat.not_lt_zero _), rfl⟩
  push := fun s e h => BinHeap.push_ok s e h
  pop := fun s h => by
    rcases BinHeap.pop_ok s h with ⟨h1, h2⟩ | ⟨e, r, h1, h2, h3, h4⟩
    · exact .inl ⟨h1, s, h2, h, h1⟩
    · exact .inr ⟨e, r, h1, h2, h3, h4⟩

end Sqrid
