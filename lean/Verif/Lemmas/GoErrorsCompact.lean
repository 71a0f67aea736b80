import Verif.Lemmas.GoErrors
import Verif.Model.GoErrorsCompact
/-!
# What the text of `Compact` does
-/

namespace Verif.Go

open Verif.GoText

/-- The answer of `Compact`. -/
def finCompact : Option GoErr → Er
  | none => .ret [.nil]
  | some e => .ret [erV (.err e)]

/-- One transaction. -/
def txEr (a b : Int) (ok : Er) (er : GoErr → Er) : Er := .count n!"tryCompact" (decimal a) (decimal b) (.ask ok er)

/-- The transactions that are left. -/
def txsEr (retry : GoErr → Bool) (a b : Int) : Nat → Option GoErr → Er
  | 0, l => finCompact l
  | n + 1, _ => txEr a b (finCompact none) fun e => cond (!retry e) (finCompact (some e)) (txsEr retry a b n (some e))

/-- An error that may be `nil`. -/
def lastErrV : Option GoErr → V
  | none => .nil
  | some e => erV (.err e)

theorem loopTx_eq (retry : GoErr → Bool) (a b : Int) (F : Store Ext → (V → Store Ext → Er) → Er)
    (G : Store Ext → (Store Ext → Er) → (Store Ext → Er) → Er) (k : Store Ext → Er) (sta : V → Int → Store Ext)
    (h : ∀ v i K, (F (sta v i) fun c s => match c with | .bool b => bif b then G s K k else k s | _ => .stuck) =
      cond (decide (i < 500)) (txEr a b (k (sta .nil i)) fun e => cond (!retry e) (k (sta (erV (.err e)) i)) (K (sta (erV (.err e)) (i + 1))))
        (k (sta v i)))
    (hk : ∀ l i, k (sta (lastErrV l) i) = finCompact l) :
    ∀ (n i : Nat) (l : Option GoErr), i + n = 500 → loopStd .stuck F G k (n + 1) (sta (lastErrV l) i) = txsEr retry a b n l := by
  intro n
  induction n with
  | zero =>
    intro i l hi
    rw [loopStd]
    refine Eq.trans ?_ ((h (lastErrV l) i fun s => loopStd .stuck F G k 0 s).trans ?_)
    · exact congrArg (F _) (funext fun c => funext fun s => by cases c <;> rfl)
    rw [decide_eq_false (by omega)]
    exact hk l i
  | succ n ih =>
    intro i l hi
    rw [loopStd]
    refine Eq.trans ?_ ((h (lastErrV l) i fun s => loopStd .stuck F G k (n + 1) s).trans ?_)
    · exact congrArg (F _) (funext fun c => funext fun s => by cases c <;> rfl)
    rw [decide_eq_true (by omega), txsEr, cond_true]
    congr 1
    · exact hk none i
    funext e'
    rw [show k (sta (erV (.err e')) i) = _ from hk (some e') i, ← ih (i + 1) (some e') (by omega)]
    rfl

theorem compactGo_tree (retry : GoErr → Bool) (rev : Int) : compactGo retry rev =
    .scan (fun a b => cond (decide (rev ≤ a)) (.ret [.nil]) (cond (decide (b < rev)) (txsEr retry a b 500 none) (txsEr retry a rev 500 none)))
      fun e => .ret [erV (.err e)] := by
  unfold compactGo
  generalize hct : ctlEr = ct
  have hl : ct.loop = loopStd .stuck := by rw [← hct]; rfl
  go_nf
  go_env
  refine congr (congrArg Er.scan (funext fun a => funext fun b => ?_)) (funext fun e => ?_)
  · go_nf
    go_env
    refine congrArg (cond _ _) ?_
    cases decide (b < rev) with
    | true =>
      rw [cond_true, cond_true]
      go_name F G k
      rw [hl]
      refine loopTx_eq retry a b F G k (fun v i => { vars := [erV .driver, .tok, .int b, v, .tok, .int a, .int b, .int i], defers := _ })
        (fun v i K => ?_) (fun l i => ?_) 500 0 none rfl
      · subst hF hG hk
        unfold txEr
        kernel_rfl
      · subst hk
        cases l <;> kernel_rfl
    | false =>
      rw [cond_false, cond_false]
      go_name F G k
      rw [hl]
      refine loopTx_eq retry a rev F G k (fun v i => { vars := [erV .driver, .tok, .int rev, v, .tok, .int a, .int b, .int i], defers := _ })
        (fun v i K => ?_) (fun l i => ?_) 500 0 none rfl
      · subst hF hG hk
        unfold txEr
        kernel_rfl
      · subst hk
        cases l <;> kernel_rfl
  · kernel_rfl

theorem attemptLoop_ge (retry : GoErr → Bool) (ans : Nat → Option GoErr) : ∀ (n i : Nat) (l : Option GoErr), i ≤ (attemptLoop retry ans n i l).1
  | 0, i, l => Nat.le_refl i
  | n + 1, i, l => by
    rw [attemptLoop]
    cases ans i with
    | none => exact Nat.le_refl i
    | some e =>
      dsimp only
      cases retry e
      · exact Nat.le_refl i
      · exact Nat.le_trans (Nat.le_succ i) (attemptLoop_ge retry ans n (i + 1) (some e))

theorem runEr_txs (ans : Nat → Option GoErr) (row : RowOut) (retry : GoErr → Bool) (a b : Int) : ∀ (n i : Nat) (l : Option GoErr)
    (cs : List (Nm × Bytes × Bytes)) (k : Nat),
    runEr ans row (txsEr retry a b n l) i cs k =
      some ⟨[lastErrV (attemptLoop retry ans n i l).2], min ((attemptLoop retry ans n i l).1 + 1) (i + n),
        cs ++ List.replicate (min ((attemptLoop retry ans n i l).1 + 1) (i + n) - i) (n!"tryCompact", decimal a, decimal b), k⟩
  | 0, i, l, cs, k => by
    have h1 : min (i + 1) (i + 0) = i := by omega
    simp only [txsEr, attemptLoop, h1, Nat.sub_self, List.replicate_zero, List.append_nil]
    cases l <;> rfl
  | n + 1, i, l, cs, k => by
    have h1 : min (i + 1) (i + (n + 1)) = i + 1 := by omega
    have h2 : i + 1 - i = 1 := by omega
    rw [txsEr, attemptLoop, txEr, runEr, runEr]
    cases ha : ans i with
    | none =>
      simp only [h1, h2]
      rfl
    | some e =>
      dsimp only
      cases hr : retry e
      · simp only [h1, h2, Bool.not_false, cond_true, if_true]
        rfl
      · rw [Bool.not_true, cond_false, runEr_txs ans row retry a b n (i + 1) (some e)]
        simp only [Bool.false_eq_true, if_false]
        have hg := attemptLoop_ge retry ans n (i + 1) (some e)
        have h3 : i + 1 + n = i + (n + 1) := by omega
        have h4 : min ((attemptLoop retry ans n (i + 1) (some e)).1 + 1) (i + (n + 1)) - i =
            min ((attemptLoop retry ans n (i + 1) (some e)).1 + 1) (i + (n + 1)) - (i + 1) + 1 := by omega
        rw [h3, h4, List.replicate_succ, List.append_assoc]
        rfl

end Verif.Go
