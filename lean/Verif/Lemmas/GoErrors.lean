import Verif.Lemmas.GoNf
import Verif.Model.GoErrors
/-!
# What the texts of retrying and counting do
-/

namespace Verif.Go

open Verif.GoText

/-- An answer of a function that says whether to try again. -/
def saysEr (b : Bool) : Er := .ret [.bool b]

theorem dqliteRetryGo_tree (e : GoErr) : dqliteRetryGo e =
    found e.asDqlite (fun c => saysEr (decide (c = errBusy)))
      (cond (e.isErrNo errLocked) (saysEr true) (cond (e.isErrNo errBusy) (saysEr true)
        (cond (containsBytes e.text txtLocked) (saysEr true) (cond (containsBytes e.text txtNested) (saysEr true)
          (cond (containsBytes e.text txtBadConn) (saysEr true) (cond (containsBytes e.text txtCheckpoint) (saysEr true) (saysEr false))))))) := by
  unfold saysEr
  kernel_rfl

theorem defaultRetryGo_tree (e : GoErr) : defaultRetryGo e =
    found e.asSqlite (fun c => saysEr (decide (c = errBusy))) (saysEr false) := by
  unfold saysEr
  kernel_rfl

/-- A choice that makes no difference (which of two logging functions is called). -/
def eitherEr (b : Bool) (x : Er) : Er := cond b x x

theorem eitherEr_eq (b : Bool) (x : Er) : eitherEr b x = x := by cases b <;> rfl

/-- The formats of the errors (`driver.go:419,457`). -/
def fmtQuery : Bytes := [113, 117, 101, 114, 121, 32, 40, 116, 114, 121, 58, 32, 37, 100, 41, 58, 32, 37, 119]
/-- Same. -/
def fmtExec : Bytes := [101, 120, 101, 99, 32, 40, 116, 114, 121, 58, 32, 37, 100, 41, 58, 32, 37, 119]

/-- The labels (`metrics.go:29-34`). -/
def lblFail : Bytes := [102, 97, 105, 108]
/-- Same. -/
def lblSuccess : Bytes := [115, 117, 99, 99, 101, 115, 115]

/-- What is counted in the end. -/
def countsEr (name label : Bytes) (k : Er) : Er :=
  .count n!"metricsTxResult" name label (.count n!"metricsOpLatency" name label (.count n!"metricsOpResult" name label k))

/-- The end of `query` and `execute`. -/
def finEr (fmt name : Bytes) (o : ErObj) (K : List V → Er) (i : Int) : Option GoErr → Er
  | none => countsEr name lblSuccess (K [erV o, .nil])
  | some e => countsEr name lblFail (K [.nil, erV (.err (errorfWrap fmt i e))])

/-- The attempts that are left. -/
def attemptsEr (retry : GoErr → Bool) (fmt name : Bytes) (o : ErObj) (K0 : List V → Er) : Nat → Nat → GoErr → Er
  | 0, i, e => finEr fmt name o K0 i (some e)
  | n + 1, i, _ => .ask (finEr fmt name o K0 i none) fun e => cond (!retry e) (finEr fmt name o K0 i (some e)) (attemptsEr retry fmt name o K0 n (i + 1) e)

/-- The retry loop. -/
theorem loopEr_eq (retry : GoErr → Bool) (fmt name : Bytes) (o : ErObj) (K0 : List V → Er) (F : Store Ext → (V → Store Ext → Er) → Er)
    (G : Store Ext → (Store Ext → Er) → (Store Ext → Er) → Er) (k : Store Ext → Er) (sta : V → V → Int → Store Ext) (log : Int → Bool)
    (h : ∀ r v i K, (F (sta r v i) fun c s => match c with | .bool b => bif b then G s K k else k s | _ => .stuck) =
      cond (decide (i < 500)) (eitherEr (log i) (.ask (k (sta (erV o) .nil i)) fun e => cond (!retry e) (k (sta .nil (erV (.err e)) i))
        (K (sta .nil (erV (.err e)) (i + 1))))) (k (sta r v i)))
    (hok : ∀ i, k (sta (erV o) .nil i) = finEr fmt name o K0 i none)
    (her : ∀ i e, k (sta .nil (erV (.err e)) i) = finEr fmt name o K0 i (some e)) :
    ∀ (n i : Nat) (e : GoErr), i + n = 500 → loopStd .stuck F G k (n + 1) (sta .nil (erV (.err e)) i) = attemptsEr retry fmt name o K0 n i e := by
  intro n
  induction n with
  | zero =>
    intro i e hi
    rw [loopStd]
    refine Eq.trans ?_ ((h .nil (erV (.err e)) i fun s => loopStd .stuck F G k 0 s).trans ?_)
    · exact congrArg (F _) (funext fun c => funext fun s => by cases c <;> rfl)
    rw [decide_eq_false (by omega)]
    exact her i e
  | succ n ih =>
    intro i e hi
    rw [loopStd]
    refine Eq.trans ?_ ((h .nil (erV (.err e)) i fun s => loopStd .stuck F G k (n + 1) s).trans ?_)
    · exact congrArg (F _) (funext fun c => funext fun s => by cases c <;> rfl)
    rw [decide_eq_true (by omega), eitherEr_eq, attemptsEr, cond_true, hok]
    congr 1
    funext e'
    rw [her, ← ih (i + 1) e' (by omega)]
    rfl

/-- What `query` and `execute` do. -/
def opEr (retry : GoErr → Bool) (fmt name : Bytes) (o : ErObj) (K0 : List V → Er) : Er :=
  .ask (finEr fmt name o K0 0 none) fun e => cond (!retry e) (finEr fmt name o K0 0 (some e)) (attemptsEr retry fmt name o K0 499 1 e)

theorem loopEr_first (retry : GoErr → Bool) (fmt name : Bytes) (o : ErObj) (K0 : List V → Er) (F : Store Ext → (V → Store Ext → Er) → Er)
    (G : Store Ext → (Store Ext → Er) → (Store Ext → Er) → Er) (k : Store Ext → Er) (sta : V → V → Int → Store Ext) (log : Int → Bool)
    (h : ∀ r v i K, (F (sta r v i) fun c s => match c with | .bool b => bif b then G s K k else k s | _ => .stuck) =
      cond (decide (i < 500)) (eitherEr (log i) (.ask (k (sta (erV o) .nil i)) fun e => cond (!retry e) (k (sta .nil (erV (.err e)) i))
        (K (sta .nil (erV (.err e)) (i + 1))))) (k (sta r v i)))
    (hok : ∀ i, k (sta (erV o) .nil i) = finEr fmt name o K0 i none)
    (her : ∀ i e, k (sta .nil (erV (.err e)) i) = finEr fmt name o K0 i (some e)) :
    loopStd .stuck F G k 501 (sta .nil .nil 0) = opEr retry fmt name o K0 := by
  rw [loopStd]
  refine Eq.trans ?_ ((h .nil .nil 0 fun s => loopStd .stuck F G k 500 s).trans ?_)
  · exact congrArg (F _) (funext fun c => funext fun s => by cases c <;> rfl)
  · rw [decide_eq_true (by omega), eitherEr_eq, cond_true, hok]
    unfold opEr
    congr 1
    funext e
    rw [her, ← loopEr_eq retry fmt name o K0 F G k sta log h hok her 499 1 e rfl]
    rfl

theorem execute_run (retry : GoErr → Bool) (name query : Bytes) (args : List V) (K0 : List V → Er) :
    Driver.f_execute.run (erHost ctlEr retry (erCalls ctlEr retry 3)) (erV .driver :: .tok :: .bytes name :: .bytes query :: args) (done K0) =
      opEr retry fmtExec name .result K0 := by
  generalize hct : ctlEr = ct
  have hl : ct.loop = loopStd .stuck := by rw [← hct]; rfl
  go_nf
  go_env
  go_name F G k
  rw [hl]
  refine loopEr_first retry fmtExec name .result K0 F G k
    (fun r v i => { vars := [erV .driver, .tok, .bytes name, .bytes query, .list args, r, v, .tok, .tok, .int i], defers := _ })
    (fun i => decide (2 < i)) (fun r v i K => ?_) (fun i => ?_) fun i e => ?_
  · subst hF hG hk
    unfold eitherEr
    kernel_rfl
  · subst hk
    unfold finEr countsEr
    kernel_rfl
  · subst hk
    unfold finEr countsEr
    kernel_rfl

theorem query_run (retry : GoErr → Bool) (name query : Bytes) (args : List V) (K0 : List V → Er) :
    Driver.f_query.run (erHost ctlEr retry (erCalls ctlEr retry 3)) (erV .driver :: .tok :: .bytes name :: .bytes query :: args) (done K0) =
      opEr retry fmtQuery name .rows K0 := by
  generalize hct : ctlEr = ct
  have hl : ct.loop = loopStd .stuck := by rw [← hct]; rfl
  go_nf
  go_env
  go_name F G k
  rw [hl]
  refine loopEr_first retry fmtQuery name .rows K0 F G k
    (fun r v i => { vars := [erV .driver, .tok, .bytes name, .bytes query, .list args, r, v, .tok, .tok, .int i], defers := _ })
    (fun i => decide (i = 0)) (fun r v i K => ?_) (fun i => ?_) fun i e => ?_
  · subst hF hG hk
    unfold eitherEr
    kernel_rfl
  · subst hk
    unfold finEr countsEr
    kernel_rfl
  · subst hk
    unfold finEr countsEr
    kernel_rfl

/-- What is counted in the end. -/
def countedEr (name : Bytes) (last : Option GoErr) : List (Nm × Bytes × Bytes) :=
  let l := if last.isNone then lblSuccess else lblFail
  [(n!"metricsTxResult", name, l), (n!"metricsOpLatency", name, l), (n!"metricsOpResult", name, l)]

/-- The results in the end. -/
def resultEr (fmt : Bytes) (o : ErObj) (i : Int) : Option GoErr → List V
  | none => [erV o, .nil]
  | some e => [.nil, erV (.err (errorfWrap fmt i e))]

theorem runEr_fin (ans : Nat → Option GoErr) (row : RowOut) (fmt name : Bytes) (o : ErObj) (K0 : List V → Er) (i : Int) (last : Option GoErr) (j : Nat) :
    runEr ans row (finEr fmt name o K0 i last) j [] 0 = runEr ans row (K0 (resultEr fmt o i last)) j (countedEr name last) 0 := by
  cases last <;> rfl

theorem runEr_attempts (ans : Nat → Option GoErr) (row : RowOut) (retry : GoErr → Bool) (fmt name : Bytes) (o : ErObj) (K0 : List V → Er) : ∀ (n i : Nat) (e : GoErr),
    runEr ans row (attemptsEr retry fmt name o K0 n i e) i [] 0 =
      runEr ans row (K0 (resultEr fmt o (attemptLoop retry ans n i (some e)).1 (attemptLoop retry ans n i (some e)).2))
        (min ((attemptLoop retry ans n i (some e)).1 + 1) (i + n)) (countedEr name (attemptLoop retry ans n i (some e)).2) 0
  | 0, i, e => by
    rw [attemptsEr, attemptLoop, runEr_fin]
    congr 1
    omega
  | n + 1, i, e => by
    rw [attemptsEr, attemptLoop, runEr]
    cases ha : ans i with
    | none =>
      dsimp only
      rw [runEr_fin]
      congr 1
      omega
    | some e' =>
      dsimp only
      cases hr : retry e'
      · rw [Bool.not_false, cond_true, runEr_fin]
        simp only [if_true]
        congr 1
        omega
      · rw [Bool.not_true, cond_false, runEr_attempts ans row retry fmt name o K0 n (i + 1) e']
        simp only [Bool.false_eq_true, if_false]
        congr 1
        omega

theorem runEr_op (ans : Nat → Option GoErr) (row : RowOut) (retry : GoErr → Bool) (fmt name : Bytes) (o : ErObj) (K0 : List V → Er) :
    runEr ans row (opEr retry fmt name o K0) 0 [] 0 =
      runEr ans row (K0 (resultEr fmt o (attemptLoop retry ans 500 0 none).1 (attemptLoop retry ans 500 0 none).2))
        (min ((attemptLoop retry ans 500 0 none).1 + 1) 500) (countedEr name (attemptLoop retry ans 500 0 none).2) 0 := by
  have h := runEr_attempts ans row retry fmt name o K0 500 0 (.leaf .plain [])
  have h1 : attemptsEr retry fmt name o K0 500 0 (.leaf .plain []) = opEr retry fmt name o K0 := rfl
  have h2 : attemptLoop retry ans 500 0 (some (.leaf .plain [])) = attemptLoop retry ans 500 0 none := rfl
  rw [h1, h2, Nat.zero_add] at h
  exact h

/-- Where the loop stops. -/
theorem attemptLoop_stop (ans : Nat → Option GoErr) (retry : GoErr → Bool) : ∀ (n i m : Nat) (last : Option GoErr), i ≤ m → m < i + n →
    (∀ j, i ≤ j → j < m → ∃ e, ans j = some e ∧ retry e = true) → (∀ e, ans m = some e → retry e = false) → attemptLoop retry ans n i last = (m, ans m)
  | 0, i, m, last, hi, hm, _, _ => by omega
  | n + 1, i, m, last, hi, hm, hb, hs => by
    rw [attemptLoop]
    by_cases him : i = m
    · subst him
      cases ha : ans i with
      | none => rfl
      | some e => dsimp only; rw [hs e ha]; rfl
    · obtain ⟨e, he, hr⟩ := hb i (Nat.le_refl i) (by omega)
      rw [he]
      dsimp only
      rw [hr]
      exact attemptLoop_stop ans retry n (i + 1) m _ (by omega) (by omega) (fun j h1 h2 => hb j (by omega) h2) hs

theorem attemptLoop_out (ans : Nat → Option GoErr) (retry : GoErr → Bool) : ∀ (n i : Nat) (last : Option GoErr),
    (∀ j, i ≤ j → j < i + n → ∃ e, ans j = some e ∧ retry e = true) →
      attemptLoop retry ans n i last = (i + n, if n = 0 then last else ans (i + n - 1))
  | 0, i, last, _ => rfl
  | n + 1, i, last, hb => by
    rw [attemptLoop]
    obtain ⟨e, he, hr⟩ := hb i (Nat.le_refl i) (by omega)
    rw [he]
    dsimp only
    rw [hr]
    refine (attemptLoop_out ans retry n (i + 1) _ fun j h1 h2 => hb j (by omega) (by omega)).trans ?_
    cases n with
    | zero => simp [he]
    | succ n =>
      have h1 : i + 1 + (n + 1) = i + (n + 1 + 1) := by omega
      rw [h1]
      rfl

end Verif.Go
