import Verif.Proofs.Debug
/-!
# Reading back integers written with any options
-/

namespace Sqrid

open Spec

namespace Debug

theorem std_int (alt : Bool) (t : IntTy) (v : Int) : (DFmt.std alt).int t v = decimalInt v := by
  unfold DFmt.int DFmt.padIntegral decimalInt
  by_cases hv : v < 0
  · have h : ¬ 0 ≤ v := by omega
    cases alt <;> simp [DFmt.std, Fmt.plain, hv, h]
  · have h : 0 ≤ v := by omega
    cases alt <;> simp [DFmt.std, Fmt.plain, hv, h]

/-- The characters of an integer. -/
def numChar (c : Char) : Bool := "0123456789abcdefABCDEFx+-".toList.contains c

/-- The value of a digit. -/
def hexVal (c : Char) : Nat := if 97 ≤ c.toNat then c.toNat - 87 else if 65 ≤ c.toNat then c.toNat - 55 else c.toNat - 48

/-- The value of digits. -/
def hexRead (b : Nat) (cs : List Char) : Nat := cs.foldl (fun n c => b * n + hexVal c) 0

theorem hexRead_append (b : Nat) (cs : List Char) (c : Char) : hexRead b (cs ++ [c]) = b * hexRead b cs + hexVal c := by simp [hexRead]

theorem hexRead_zeros (b m : Nat) (cs : List Char) : hexRead b (List.replicate m '0' ++ cs) = hexRead b cs := by
  have : hexRead b (List.replicate m '0') = 0 := by
    induction m with
    | zero => rfl
    | succ m ih => rw [List.replicate_succ', hexRead_append, ih]; rfl
  unfold hexRead at this ⊢
  rw [List.foldl_append, this]

/-- What `hexadecimal` does to a digit. -/
def casing (upper : Bool) (c : Char) : Char := if upper then c.toUpper else c

theorem digit_facts : ∀ d : Fin 16, ∀ upper : Bool, hexVal (casing upper (Nat.digitChar d)) = d ∧ numChar (casing upper (Nat.digitChar d)) = true ∧
    casing upper (Nat.digitChar d) ≠ '-' ∧ casing upper (Nat.digitChar d) ≠ 'x' := by decide

theorem digits_read {b : Nat} (hb : 1 < b) (hb' : b ≤ 16) (upper : Bool) (n : Nat) : hexRead b ((Nat.toDigits b n).map (casing upper)) = n := by
  induction n using Nat.strongRecOn with
  | ind n ih =>
    rw [Nat.toDigits_eq_if hb]
    split
    · rename_i h
      simp only [List.map_cons, List.map_nil, hexRead, List.foldl_cons, List.foldl_nil, Nat.mul_zero, Nat.zero_add]
      exact (digit_facts ⟨n, by omega⟩ upper).1
    · rename_i h
      rw [List.map_append, List.map_cons, List.map_nil, hexRead_append, ih _ (Nat.div_lt_self (by omega) hb)]
      have hlt := Nat.mod_lt n (show 0 < b by omega)
      rw [(digit_facts ⟨n % b, by omega⟩ upper).1]
      exact Nat.div_add_mod n b

theorem digits_chars {b : Nat} (hb : 1 < b) (hb' : b ≤ 16) (upper : Bool) (n : Nat) : ∀ c ∈ (Nat.toDigits b n).map (casing upper), numChar c = true ∧ c ≠ '-' := by
  induction n using Nat.strongRecOn with
  | ind n ih =>
    rw [Nat.toDigits_eq_if hb]
    split
    · rename_i h
      intro c hc
      simp only [List.map_cons, List.map_nil, List.mem_singleton] at hc
      subst hc
      have := digit_facts ⟨n, by omega⟩ upper
      exact ⟨this.2.1, this.2.2.1⟩
    · rename_i h
      intro c hc
      rw [List.map_append, List.mem_append] at hc
      rcases hc with hc | hc
      · exact ih _ (Nat.div_lt_self (by omega) hb) c hc
      · simp only [List.map_cons, List.map_nil, List.mem_singleton] at hc
        subst hc
        have hlt := Nat.mod_lt n (show 0 < b by omega)
        have := digit_facts ⟨n % b, by omega⟩ upper
        exact ⟨this.2.1, this.2.2.1⟩

/-- A run of characters of integers, with a filling around it. -/
theorem run_read {f : Char} {x y s t : List Char} {i j k l : Nat} (hx : x ≠ []) (hy : y ≠ []) (hxc : ∀ c ∈ x, numChar c = true) (hyc : ∀ c ∈ y, numChar c = true)
    (hf : numChar f = false ∨ (i = 0 ∧ j = 0 ∧ k = 0 ∧ l = 0)) (hs : Ends s) (ht : Ends t)
    (h : List.replicate i f ++ x ++ List.replicate j f ++ s = List.replicate k f ++ y ++ List.replicate l f ++ t) : x = y := by
  have take : ∀ (x : List Char) (j : Nat) (s : List Char), (∀ c ∈ x, numChar c = true) → (numChar f = false ∨ j = 0) → Ends s →
      (x ++ List.replicate j f ++ s).takeWhile numChar = x := by
    intro x j s hx hf hs
    rw [List.append_assoc, List.takeWhile_append_of_pos hx]
    have : (List.replicate j f ++ s).takeWhile numChar = [] := by
      cases j with
      | zero =>
        obtain ⟨c, rest, rfl, hc⟩ := hs
        have : numChar c = false := by rcases hc with rfl | rfl | rfl | rfl <;> decide
        simp [this]
      | succ j =>
        rcases hf with hf | hf
        · simp [List.replicate_succ, hf]
        · cases hf
    rw [this, List.append_nil]
  rcases hf with hf | ⟨rfl, rfl, rfl, rfl⟩
  · have drop : ∀ (i : Nat) (x r : List Char), x ≠ [] → (∀ c ∈ x, numChar c = true) → (List.replicate i f ++ x ++ r).dropWhile (· == f) = x ++ r := by
      intro i x r hx hxc
      rw [List.append_assoc, List.dropWhile_append_of_pos (by intro a ha; rw [List.eq_of_mem_replicate ha]; simp)]
      cases x with
      | nil => exact absurd rfl hx
      | cons c x =>
        have : (c == f) = false := by
          have := hxc c (.head _)
          rw [beq_eq_false_iff_ne]
          rintro rfl
          rw [hf] at this
          cases this
        rw [List.cons_append, List.dropWhile_cons, this]
        rfl
    have h1 := congrArg (List.dropWhile (· == f)) h
    rw [List.append_assoc _ _ s, List.append_assoc _ _ t, drop _ _ _ hx hxc, drop _ _ _ hy hyc, ← List.append_assoc, ← List.append_assoc] at h1
    have h2 := congrArg (List.takeWhile numChar) h1
    rwa [take _ _ _ hxc (.inl hf) hs, take _ _ _ hyc (.inl hf) ht] at h2
  · have h2 := congrArg (List.takeWhile numChar) h
    simp only [List.replicate_zero, List.nil_append] at h2
    have e1 := take x 0 s hxc (.inr rfl) hs
    have e2 := take y 0 t hyc (.inr rfl) ht
    simp only [List.replicate_zero] at e1 e2
    rwa [e1, e2] at h2

/-- The text of an integer without the filling. -/
def core (o : DFmt) (nonneg : Bool) (pre digits : List Char) : List Char :=
  (if nonneg then (if o.plus then ['+'] else []) else ['-']) ++ (if o.alt then pre else []) ++
    List.replicate (if o.zero then o.width.getD 0 - (((if nonneg then (if o.plus then ['+'] else []) else ['-']) ++ if o.alt then pre else []) ++ digits).length else 0) '0' ++
    digits

theorem padIntegral_core (o : DFmt) (nonneg : Bool) (pre digits : List Char) :
    ∃ i j, o.padIntegral nonneg pre digits = List.replicate i o.fill ++ core o nonneg pre digits ++ List.replicate j o.fill ∧
      ((o.width = none ∨ o.zero = true) → i = 0 ∧ j = 0) := by
  unfold DFmt.padIntegral core
  simp only
  by_cases hz : o.zero = true
  · refine ⟨0, 0, ?_, fun _ => ⟨rfl, rfl⟩⟩
    rw [if_pos hz, if_pos hz]
    simp only [List.replicate_zero, List.nil_append, List.append_nil]
  · rw [if_neg hz, if_neg hz]
    simp only [List.replicate_zero, List.append_nil]
    generalize hk : o.width.getD 0 - _ = k
    have h0 : o.width = none ∨ o.zero = true → k = 0 := by
      rintro (h | h)
      · rw [h] at hk; simp at hk; omega
      · exact absurd h hz
    cases o.align.getD .right with
    | left => exact ⟨0, k, by simp, fun h => ⟨rfl, h0 h⟩⟩
    | right => exact ⟨k, 0, by simp, fun h => ⟨h0 h, rfl⟩⟩
    | center => exact ⟨k / 2, (k + 1) / 2, by simp, fun h => by have := h0 h; omega⟩

theorem core_inj {o : DFmt} {pre : List Char} (hpre : '-' ∉ pre) {m n : Bool} {b : Nat} {x y : List Char} (hx : ∀ c ∈ x, c ≠ '-') (hy : ∀ c ∈ y, c ≠ '-')
    (h : core o m pre x = core o n pre y) : m = n ∧ hexRead b x = hexRead b y := by
  have minus : ∀ (m : Bool) (x : List Char), (∀ c ∈ x, c ≠ '-') → ('-' ∈ core o m pre x ↔ m = false) := by
    intro m x hx
    have h1 : '-' ∉ x := fun h => hx _ h rfl
    unfold core
    cases m <;> cases o.plus <;> cases o.alt <;> simp [h1, hpre]
  have hmn : m = n := by
    have h1 := minus m x hx
    have h2 := minus n y hy
    rw [h] at h1
    cases m <;> cases n <;> simp_all
  subst hmn
  refine ⟨rfl, ?_⟩
  unfold core at h
  rw [List.append_assoc, List.append_assoc _ _ y] at h
  have := congrArg (hexRead b) (List.append_cancel_left h)
  rwa [hexRead_zeros, hexRead_zeros] at this

/-- Integers given by a sign and digits. -/
theorem readable_padIntegral {o : DFmt} (ho : Clear o) {pre : List Char} (hpre : '-' ∉ pre) (hpre' : ∀ c ∈ pre, numChar c = true) {b : Nat} {nonneg : α → Bool} {digits : α → List Char}
    (hne : ∀ a, digits a ≠ []) (hd : ∀ a, ∀ c ∈ digits a, numChar c = true ∧ c ≠ '-')
    (hinj : ∀ a b', nonneg a = nonneg b' → hexRead b (digits a) = hexRead b (digits b') → a = b') :
    Readable fun a => o.padIntegral (nonneg a) pre (digits a) := by
  intro a a' s t hs ht h
  simp only at h
  have hc : ∀ a, ∀ c ∈ core o (nonneg a) pre (digits a), numChar c = true := by
    intro a c hc
    unfold core at hc
    rw [List.mem_append, List.mem_append, List.mem_append] at hc
    rcases hc with ((hc | hc) | hc) | hc
    · have : c = '+' ∨ c = '-' := by
        revert hc
        cases nonneg a <;> cases o.plus <;> simp +contextual
      rcases this with rfl | rfl <;> decide
    · cases ho : o.alt <;> rw [ho] at hc
      · simp at hc
      · exact hpre' c hc
    · rw [List.eq_of_mem_replicate hc]; decide
    · exact (hd a c hc).1
  have hn : ∀ a, core o (nonneg a) pre (digits a) ≠ [] := by
    intro a h
    unfold core at h
    exact hne a (List.append_eq_nil_iff.1 h).2
  obtain ⟨i, j, e1, z1⟩ := padIntegral_core o (nonneg a) pre (digits a)
  obtain ⟨k, l, e2, z2⟩ := padIntegral_core o (nonneg a') pre (digits a')
  have hx : core o (nonneg a) pre (digits a) = core o (nonneg a') pre (digits a') := by
    rw [e1, e2] at h
    refine run_read (hn a) (hn a') (hc a) (hc a') ?_ hs ht h
    rcases ho with h | h | h
    · exact .inr ⟨(z1 (.inl h)).1, (z1 (.inl h)).2, (z2 (.inl h)).1, (z2 (.inl h)).2⟩
    · exact .inr ⟨(z1 (.inr h)).1, (z1 (.inr h)).2, (z2 (.inr h)).1, (z2 (.inr h)).2⟩
    · refine .inl ?_
      rw [← Bool.not_eq_true]
      intro hm
      refine h ?_
      rw [show "0123456789abcdefABCDEFx+-]".toList = "0123456789abcdefABCDEFx+-".toList ++ [']'] from by decide]
      exact List.mem_append_left _ (List.contains_iff_mem.1 hm)
  obtain ⟨h1, h2⟩ := core_inj (b := b) hpre (fun c hc => (hd a c hc).2) (fun c hc => (hd a' c hc).2) hx
  have := hinj a a' h1 h2
  subst this
  exact ⟨rfl, List.append_cancel_left h⟩

theorem map_casing_false (cs : List Char) : cs.map (casing false) = cs := by
  rw [show casing false = id from rfl, List.map_id]

/-- The text of an integer in decimal. -/
theorem readable_int {o : DFmt} (ho : Clear o) (hh : o.hex = none) (t : IntTy) : Readable (o.int t) := by
  have e : o.int t = fun v : Int => o.padIntegral (decide (0 ≤ v)) [] (decimal v.natAbs) := by
    funext v; unfold DFmt.int; rw [hh]
  rw [e]
  refine readable_padIntegral (b := 10) ho (by simp) (by simp) (fun v => Nat.toDigits_ne_nil) (fun v c hc => ?_) fun v w h1 h2 => ?_
  · have := digits_chars (b := 10) (by decide) (by decide) false v.natAbs
    rw [map_casing_false] at this
    exact this c hc
  · have r : ∀ n, hexRead 10 (decimal n) = n := fun n => by
      have := digits_read (b := 10) (by decide) (by decide) false n
      rwa [map_casing_false] at this
    rw [r, r] at h2
    have h1 := decide_eq_decide.1 h1
    omega

/-- The text of a word, with all options. -/
theorem readable_word {o : DFmt} (ho : Clear o) : Readable fun w : BitVec 32 => o.int .u32 w.toNat := by
  cases hh : o.hex with
  | none => exact Debug.Readable.comp (readable_int ho hh .u32) fun a b h => BitVec.eq_of_toNat_eq (by exact_mod_cast h)
  | some upper =>
    have e : (fun w : BitVec 32 => o.int .u32 w.toNat) = fun w : BitVec 32 => o.padIntegral true ['0', 'x'] ((Nat.toDigits 16 w.toNat).map (casing upper)) := by
      funext w
      unfold DFmt.int
      rw [hh]
      have hlt := w.isLt
      have hm : ((w.toNat : Int) % (IntTy.u32.hi - IntTy.u32.lo + 1)).toNat = w.toNat := by
        rw [Int.emod_eq_of_lt (by omega) (by simp only [IntTy.u32]; omega)]
        rfl
      simp only [hm]
      cases upper with
      | false => rw [map_casing_false]; rfl
      | true => rfl
    rw [e]
    refine readable_padIntegral (b := 16) ho (by decide) (by decide) (fun v => by simp [Nat.toDigits_ne_nil]) (fun v c hc => digits_chars (by decide) (by decide) upper _ c hc)
      fun v w _ h2 => ?_
    rw [digits_read (by decide) (by decide), digits_read (by decide) (by decide)] at h2
    exact BitVec.eq_of_toNat_eq h2

end Debug

end Sqrid
