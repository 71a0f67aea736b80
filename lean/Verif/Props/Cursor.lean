import Verif.Model.Cursor
/-!
# C97 Every query gives its connection back
-/

namespace Verif

theorem deferClose_path {p : CursorProg} {o o' : Bool} {l : List (CursorOp × Bool)} (h : CursorPath p.deferClose o l o') :
    o' = false := by
  induction p generalizing o l with
  | ret =>
    cases h with
    | call op b h => cases h; rfl
  | call op k ih =>
    cases h with
    | call op b h => exact ih _ h

/-- Whenever one of these functions returns, in whatever way, the rows it read are closed. -/
theorem C97_closed_partial {o' : Bool} {l : List (CursorOp × Bool)} :
    (∀ n, CursorPath (queryAll n) false l o' → o' = false) ∧ (CursorPath queryOne false l o' → o' = false) := by
  have fin : ∀ {p : CursorProg}, CursorPath (.call .query fun ok => if ok then p.deferClose else .ret) false l o' → o' = false := by
    intro p h
    cases h with
    | call op b h =>
      cases b with
      | true => exact deferClose_path h
      | false => cases h; rfl
  exact ⟨fun n h => fin h, fun h => fin h⟩

theorem scanLoop_path {n : Nat} {o' : Bool} {l : List (CursorOp × Bool)} (h : CursorPath (scanLoop n) true l o')
    (hn : l.countP (· == (.next, true)) ≤ n) : (o' = true ↔ (.scan, false) ∈ l) := by
  induction n generalizing l with
  | zero =>
    cases h with
    | call op b h =>
      cases h
      cases b with
      | false => simp [CursorOp.after]
      | true => simp at hn
  | succ n ih =>
    cases h with
    | call op b h =>
      cases b with
      | false => cases h; simp [CursorOp.after]
      | true =>
        cases h with
        | call op b h =>
          cases b with
          | false => cases h; simp [CursorOp.after]
          | true =>
            have := ih h (by simp at hn; omega)
            rw [this]
            simp

/-- Reading the leases at start leaves its rows open, and so keeps a connection until the backend is stopped (which cancels the query), exactly if a row could not be read. (`n`: the
number of rows; `Next` does not announce more.) -/
theorem C97_leases_partial {n : Nat} {o' : Bool} {l : List (CursorOp × Bool)} (h : CursorPath (queryTtl n) false l o')
    (hn : l.countP (· == (.next, true)) ≤ n) : o' = true ↔ (.scan, false) ∈ l := by
  cases h with
  | call op b h =>
    cases b with
    | false => cases h; simp [CursorOp.after]
    | true =>
      have := scanLoop_path h (by simpa using hn)
      rw [this]
      simp

/-- **C97** (the English property does not hold). If the second lease cannot be read, the rows stay open. -/
theorem C97_leases_counterexample :
    CursorPath (queryTtl 5) false [(.query, true), (.next, true), (.scan, true), (.next, true), (.scan, false)] true :=
  .call _ true (.call _ true (.call _ true (.call _ true (.call _ false (.ret _)))))

/-- A list whose second row cannot be read, and one that breaks: both close the rows. -/
example : CursorPath (queryAll 3) false [(.query, true), (.next, true), (.scan, true), (.next, true), (.scan, false), (.close, true)] false ∧
    CursorPath (queryAll 3) false [(.query, true), (.next, true), (.scan, true), (.next, false), (.close, true)] false ∧
    CursorPath queryOne false [(.query, true), (.next, false), (.err, false), (.close, true)] false :=
  ⟨.call _ true (.call _ true (.call _ true (.call _ true (.call _ false (.call _ true (.ret _)))))),
   .call _ true (.call _ true (.call _ true (.call _ false (.call _ true (.ret _))))),
   .call _ true (.call _ false (.call _ false (.call _ true (.ret _))))⟩

end Verif
