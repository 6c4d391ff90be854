import Verif.Model.Basic
/-!
# Specification vocabulary for iterators

An iterator is a state with a `next` function returning an optional item and the new state.
-/
namespace Ellecs

/-- Calling `next` until it returns `None` yields exactly the items `xs`, in this order. -/
inductive Yields {σ α : Type} (next : σ → Option α × σ) : σ → List α → Prop
  | done {s : σ} : (next s).1 = none → Yields next s []
  | item {s s' : σ} {x : α} {xs : List α} : next s = (some x, s') → Yields next s' xs → Yields next s (x :: xs)

/-- The state after `n` further calls of `next`. -/
def advance {σ α : Type} (next : σ → Option α × σ) : Nat → σ → σ
  | 0, s => s
  | n + 1, s => advance next n (next s).2

/-- Every further call returns `None`. -/
def Finished {σ α : Type} (next : σ → Option α × σ) (s : σ) : Prop :=
  ∀ n, (next (advance next n s)).1 = none

theorem Yields.det {σ α : Type} {next : σ → Option α × σ} {s : σ} {xs ys : List α}
    (h1 : Yields next s xs) (h2 : Yields next s ys) : xs = ys := by
  induction h1 generalizing ys with
  | done h =>
    cases h2 with
    | done _ => rfl
    | item h' _ => rw [h'] at h; cases h
  | item h _ ih =>
    cases h2 with
    | done h' => rw [h] at h'; cases h'
    | item h' h'' =>
      rw [h] at h'
      cases h'
      rw [ih h'']

/-- Pairwise relation of two lists. -/
inductive Pairs {α β : Type} (R : α → β → Prop) : List α → List β → Prop
  | nil : Pairs R [] []
  | cons {a b as bs} : R a b → Pairs R as bs → Pairs R (a :: as) (b :: bs)

/-- The results of `n` calls of a `next` that can panic. -/
def callN {σ α : Type} (next : σ → Except Fault (Option α × σ)) : Nat → σ → Except Fault (List (Option α))
  | 0, _ => .ok []
  | n + 1, s =>
    match next s with
    | .error f => .error f
    | .ok (x, s') =>
      match callN next n s' with
      | .error f => .error f
      | .ok xs => .ok (x :: xs)

/-- However often `next` is called, it does not panic, and returns the items `xs` in this order followed by `None`
for ever. -/
def Produces {σ α : Type} (next : σ → Except Fault (Option α × σ)) (s : σ) (xs : List α) : Prop :=
  ∀ n, callN next n s = .ok ((xs.map some).take n ++ List.replicate (n - xs.length) none)

end Ellecs
