import Mathlib.Data.Nat.Digits.Lemmas
import Verif.Time.UtcLemmas

/-!
# Lemmas about time strings
-/

set_option linter.unusedSectionVars false

namespace Gunns.Time

open Spec

variable {K : Type _} [Field K] [LinearOrder K] [IsStrictOrderedRing K] [FloorRing K]

theorem valueOf_append (a b : List ℕ) :
    valueOf (a ++ b) = b.foldl (fun n d => 10 * n + d) (valueOf a) := by
  unfold valueOf
  rw [List.foldl_append]

theorem valueOf_reverse (l : List ℕ) : valueOf l.reverse = Nat.ofDigits 10 l := by
  induction l with
  | nil => rfl
  | cons a l ih =>
    rw [List.reverse_cons, valueOf_append, ih, Nat.ofDigits_cons]
    simp only [List.foldl_cons, List.foldl_nil]
    ring

theorem valueOf_zeros (k : ℕ) : valueOf (List.replicate k 0) = 0 := by
  unfold valueOf
  induction k with
  | zero => rfl
  | succ k ih =>
    rw [List.replicate_succ, List.foldl_cons]
    exact ih

/-- What `%0wd` prints. -/
theorem shows_fmt {w n : ℕ} (h : n < 10 ^ w) : Shows w n (fmt w (n : ℤ)) := by
  unfold fmt
  simp only
  rw [if_neg (by omega), if_neg (by omega), List.nil_append, Int.natAbs_natCast]
  refine ⟨_, rfl, ?_, ?_, ?_⟩
  · rw [List.length_append, List.length_replicate, List.length_reverse]
    have := (Nat.digits_length_le_iff (b := 10) (by norm_num) (k := w) n).2 h
    omega
  · intro d hd
    rcases List.mem_append.1 hd with c | c
    · rw [List.eq_of_mem_replicate c]; norm_num
    · exact Nat.digits_lt_base (by norm_num) (List.mem_reverse.1 c)
  · rw [valueOf_append, valueOf_zeros]
    show valueOf _ = n
    rw [valueOf_reverse, Nat.ofDigits_digits]

theorem shows_fmt' {w n : ℕ} {z : ℤ} (e : z = n) (h : n < 10 ^ w) : Shows w n (fmt w z) := by
  rw [e]
  exact shows_fmt h

/-- What follows a number in a string does not go on with it. -/
def Stops : List Ch → Prop
  | Ch.digit _ :: _ => False
  | _ => True

theorem atoiDigits_map (ds : List ℕ) (rest : List Ch) (hr : Stops rest) (n : ℕ) :
    atoiDigits n (ds.map Ch.digit ++ rest) = ds.foldl (fun n d => 10 * n + d) n := by
  induction ds generalizing n with
  | nil =>
    rw [List.map_nil, List.nil_append, List.foldl_nil]
    match rest, hr with
    | [], _ => rfl
    | Ch.colon :: _, _ => rfl
    | Ch.minus :: _, _ => rfl
  | cons d ds ih =>
    rw [List.map_cons, List.cons_append, List.foldl_cons]
    show atoiDigits (n * 10 + d) _ = _
    rw [ih, mul_comm]

theorem atoi_shows {w n : ℕ} {l rest : List Ch} (h : Shows (w + 1) n l) (hr : Stops rest) :
    atoi (l ++ rest) = n := by
  obtain ⟨ds, rfl, hl, -, hv⟩ := h
  have e : atoiDigits 0 (ds.map Ch.digit ++ rest) = n := (atoiDigits_map ds rest hr 0).trans hv
  match ds, hl with
  | d :: ds, _ =>
    show ((atoiDigits 0 ((d :: ds).map Ch.digit ++ rest) : ℕ) : ℤ) = n
    rw [e]

theorem shows_length {w n : ℕ} {l : List Ch} (h : Shows w n l) : l.length = w := by
  obtain ⟨ds, rfl, hl, -⟩ := h
  rw [List.length_map, hl]

theorem shows_head {w n : ℕ} {l rest : List Ch} (h : Shows (w + 1) n l) : (l ++ rest).head? ≠ some Ch.minus := by
  obtain ⟨ds, rfl, hl, -⟩ := h
  match ds, hl with
  | d :: ds, _ =>
    intro c
    cases c

theorem castInt_int {n : ℤ} (h1 : -2147483648 ≤ n) (h2 : n ≤ 2147483647) : castInt ((n : ℤ) : K) = some n := by
  unfold castInt
  simp only [Int.floor_intCast, Int.ceil_intCast, ite_self]
  rw [if_pos ⟨h1, h2⟩]

theorem castInt_nearest {x : K} {n : ℤ} (h : Nearest x n) (hx : 0 ≤ x) (h2 : n ≤ 2147483647) :
    castInt (x + 1 / 2) = some n := by
  obtain ⟨h3, h4⟩ := h
  have e : ⌊x + 1 / 2⌋ = n := by
    rw [Int.floor_eq_iff]
    constructor <;> linarith
  have hn : 0 ≤ n := by
    rw [← e]
    exact Int.floor_nonneg.2 (by linarith)
  unfold castInt
  simp only
  rw [if_pos (show (0 : K) ≤ x + 1 / 2 by linarith), e, if_pos ⟨by omega, h2⟩]

/-- The parts of a whole number of seconds. -/
theorem parts {n : ℕ} {D H M S : ℕ} (e : n = 86400 * D + 3600 * H + 60 * M + S) (hH : H < 24) (hM : M < 60)
    (hS : S < 60) :
    (n : ℤ).tdiv secPerDay = D ∧
    ((n : ℤ) - (n : ℤ).tdiv secPerDay * secPerDay).tdiv secPerHr = H ∧
    ((n : ℤ) - ((n : ℤ).tdiv secPerDay * secPerDay +
      ((n : ℤ) - (n : ℤ).tdiv secPerDay * secPerDay).tdiv secPerHr * secPerHr)).tdiv minPerHr = M ∧
    (n : ℤ).tmod secPerMin = S := by
  have e1 : (n : ℤ).tdiv secPerDay = D := by
    unfold secPerDay
    rw [Int.tdiv_eq_ediv_of_nonneg (by omega)]
    omega
  have e2 : ((n : ℤ) - (n : ℤ).tdiv secPerDay * secPerDay).tdiv secPerHr = H := by
    rw [e1]
    unfold secPerDay secPerHr
    rw [Int.tdiv_eq_ediv_of_nonneg (by omega)]
    omega
  refine ⟨e1, e2, ?_, ?_⟩
  · rw [e2, e1]
    unfold secPerDay secPerHr minPerHr
    rw [Int.tdiv_eq_ediv_of_nonneg (by omega)]
    omega
  · unfold secPerMin
    rw [Int.tmod_eq_emod_of_nonneg (by omega)]
    omega

/-- What the conversion prints for a number of seconds of the year it settles on. -/
theorem yseconds_text {f : Format} (hf : f ≠ Format.other) {seconds t : K} {year y' : ℤ} {n D H M S : ℕ}
    (hy' : 0 ≤ y')
    (hs : seconds < year2second year ∧ y' = year ∧ t = seconds ∨
      (year2second year : K) ≤ seconds ∧ y' = year + 1 ∧ t = seconds - year2second year)
    (ht : 0 ≤ t) (hn : Nearest t (n : ℤ)) (hr : n ≤ 2147483647)
    (e : n = 86400 * D + 3600 * H + 60 * M + S) (hD : D < 999) (hH : H < 24) (hM : M < 60) (hS : S < 60) :
    ∃ text, yseconds2sgmt f seconds year = some ⟨true, y', some text⟩ ∧
      IsText f (y'.toNat % 100) (D + 1) H M S text := by
  obtain ⟨p1, p2, p3, p4⟩ := parts e hH hM hS
  have ey : (if seconds ≥ (year2second year : K) then year + 1 else year) = y' := by
    rcases hs with ⟨h1, h2, -⟩ | ⟨h1, h2, -⟩
    · rw [if_neg (not_le.2 h1), h2]
    · rw [if_pos h1, h2]
  have et : (if seconds ≥ (year2second year : K) then seconds - year2second year else seconds) = t := by
    rcases hs with ⟨h1, -, h2⟩ | ⟨h1, -, h2⟩
    · rw [if_neg (not_le.2 h1), h2]
    · rw [if_pos h1, h2]
  have hc : castInt (t + 1 / 2) = some (n : ℤ) := castInt_nearest hn ht (by exact_mod_cast hr)
  have my : y'.tmod 100 = ((y'.toNat % 100 : ℕ) : ℤ) := by
    rw [Int.tmod_eq_emod_of_nonneg hy']
    omega
  have t1 : Shows 2 (y'.toNat % 100) (fmt 2 (y'.tmod 100)) :=
    shows_fmt' my (lt_of_lt_of_le (Nat.mod_lt _ (by norm_num)) (by norm_num))
  have t2 : Shows 3 (D + 1) (fmt 3 ((n : ℤ).tdiv secPerDay + 1)) := by
    refine shows_fmt' ?_ (by omega)
    rw [p1]
    push_cast
    rfl
  have t3 := shows_fmt' (w := 2) p2 (by omega)
  have t4 := shows_fmt' (w := 2) p3 (by omega)
  have t5 := shows_fmt' (w := 2) p4 (by omega)
  unfold yseconds2sgmt
  simp only
  rw [ey, et, hc]
  match f, hf with
  | Format.colon, _ => exact ⟨_, rfl, _, _, _, _, _, t1, t2, t3, t4, t5, Or.inl ⟨rfl, rfl⟩⟩
  | Format.noColon, _ => exact ⟨_, rfl, _, _, _, _, _, t1, t2, t3, t4, t5, Or.inr ⟨rfl, rfl⟩⟩

/-- Every number of seconds has its parts. -/
theorem exists_parts (n : ℕ) :
    n = 86400 * (n / 86400) + 3600 * (n % 86400 / 3600) + 60 * (n % 3600 / 60) + n % 60 ∧
    n % 86400 / 3600 < 24 ∧ n % 3600 / 60 < 60 ∧ n % 60 < 60 := by
  omega

theorem exists_nearest {x : K} (h : 0 ≤ x) : ∃ n : ℕ, Nearest x (n : ℤ) := by
  have h0 : 0 ≤ ⌊x + 1 / 2⌋ := Int.floor_nonneg.2 (by linarith)
  refine ⟨⌊x + 1 / 2⌋.toNat, ?_⟩
  rw [Int.toNat_of_nonneg h0]
  have h1 := Int.floor_le (x + 1 / 2)
  have h2 := Int.lt_floor_add_one (x + 1 / 2)
  constructor <;> linarith

/-- The count of a string of hours, minutes and seconds. -/
theorem hms_digits {cycle : K} {lh lm ls : List Ch} {H M S : ℕ} (h1 : Shows 2 H lh) (h2 : Shows 2 M lm)
    (h3 : Shows 2 S ls) :
    hms2count cycle (lh ++ [Ch.colon] ++ lm ++ [Ch.colon] ++ ls) =
      (castInt ((⌊((H * 3600 + M * 60 + S : ℤ) : K) / cycle⌋ : ℤ) : K)).map some ∧
    hms2count cycle (Ch.minus :: (lh ++ [Ch.colon] ++ lm ++ [Ch.colon] ++ ls)) =
      (castInt ((⌊((-(H * 3600 + M * 60 + S) : ℤ) : K) / cycle⌋ : ℤ) : K)).map some := by
  have n1 := shows_length h1
  have n2 := shows_length h2
  have n3 := shows_length h3
  have len : (lh ++ [Ch.colon] ++ lm ++ [Ch.colon] ++ ls).length = 8 := by
    simp only [List.length_append, List.length_cons, List.length_nil, n1, n2, n3]
  have a1 : atoi (lh ++ [Ch.colon] ++ lm ++ [Ch.colon] ++ ls) = H := by
    rw [List.append_assoc, List.append_assoc, List.append_assoc]
    exact atoi_shows h1 trivial
  have d2 : (lh ++ [Ch.colon] ++ lm ++ [Ch.colon] ++ ls).drop 3 = lm ++ ([Ch.colon] ++ ls) := by
    have e : lh ++ [Ch.colon] ++ lm ++ [Ch.colon] ++ ls = (lh ++ [Ch.colon]) ++ (lm ++ ([Ch.colon] ++ ls)) := by
      simp only [List.append_assoc]
    rw [e]
    exact List.drop_left' (by rw [List.length_append, n1]; rfl)
  have d3 : (lh ++ [Ch.colon] ++ lm ++ [Ch.colon] ++ ls).drop 6 = ls ++ [] := by
    rw [List.append_nil]
    exact List.drop_left' (by simp only [List.length_append, n1, n2, List.length_cons, List.length_nil])
  have a2 : atoi ((lh ++ [Ch.colon] ++ lm ++ [Ch.colon] ++ ls).drop 3) = M := by
    rw [d2]
    exact atoi_shows h2 trivial
  have a3 : atoi ((lh ++ [Ch.colon] ++ lm ++ [Ch.colon] ++ ls).drop 6) = S := by
    rw [d3]
    exact atoi_shows h3 trivial
  obtain ⟨l, hl⟩ : ∃ l, l = lh ++ [Ch.colon] ++ lm ++ [Ch.colon] ++ ls := ⟨_, rfl⟩
  rw [← hl] at len a1 a2 a3 ⊢
  constructor
  · unfold hms2count hmsSize
    rw [if_neg (by rw [len]; norm_num), if_pos (by rw [len]), a1, a2, a3]
    rfl
  · unfold hms2count hmsSize
    have b1 : (Ch.minus :: l).drop 1 = l := rfl
    have b2 : (Ch.minus :: l).drop 4 = l.drop 3 := rfl
    have b3 : (Ch.minus :: l).drop 7 = l.drop 6 := rfl
    rw [if_pos (by rw [List.length_cons, len]), if_neg (by simp), b1, b2, b3, a1, a2, a3]
    rfl

end Gunns.Time
