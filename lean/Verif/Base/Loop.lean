/-!
# Counted loops

`loop f n s` is the C++ loop `for (int k = 0; k < n; ++k) { s = f(k, s); }`.
-/

namespace Gunns

/-- `for (k = 0; k < n; ++k) s = f k s`. -/
def loop {σ : Type _} (f : Nat → σ → σ) : Nat → σ → σ
  | 0, s => s
  | n + 1, s => f n (loop f n s)

@[simp] theorem loop_zero {σ : Type _} (f : Nat → σ → σ) (s : σ) : loop f 0 s = s := rfl

@[simp] theorem loop_succ {σ : Type _} (f : Nat → σ → σ) (n : Nat) (s : σ) :
    loop f (n + 1) s = f n (loop f n s) := rfl

/-- Invariant rule for counted loops. -/
theorem loop_inv {σ : Type _} {f : Nat → σ → σ} {s : σ} (P : Nat → σ → Prop) (n : Nat)
    (h0 : P 0 s) (hs : ∀ k, k < n → ∀ t, P k t → P (k + 1) (f k t)) : P n (loop f n s) := by
  induction n with
  | zero => exact h0
  | succ n ih =>
    exact hs n (Nat.lt_succ_self n) _ (ih (fun k hk => hs k (Nat.lt_succ_of_lt hk)))

/-- Two loops with bodies that agree on the reachable indices and states give the same result. -/
theorem loop_congr {σ : Type _} {f g : Nat → σ → σ} (n : Nat) (s : σ)
    (h : ∀ k, k < n → ∀ t, f k t = g k t) : loop f n s = loop g n s := by
  induction n with
  | zero => rfl
  | succ n ih =>
    rw [loop_succ, loop_succ, ih (fun k hk => h k (Nat.lt_succ_of_lt hk)),
      h n (Nat.lt_succ_self n)]

/-- `for (k = 0; k < n; ++k) x += g(k)`-like accumulation is a list fold. -/
theorem loop_eq_foldl {σ : Type _} (f : Nat → σ → σ) (n : Nat) (s : σ) :
    loop f n s = (List.range n).foldl (fun s k => f k s) s := by
  induction n with
  | zero => rfl
  | succ n ih => rw [loop_succ, List.range_succ, List.foldl_append, ← ih]; rfl

end Gunns
