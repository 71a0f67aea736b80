import Verif.Lemmas.GoErrors
/-!
# What the texts that read one row do
-/

namespace Verif.Go

open Verif.GoText

theorem attemptsEr_congr (retry : GoErr → Bool) (fmt name : Bytes) (o : ErObj) (K K' : List V → Er) (h : K [erV o, .nil] = K' [erV o, .nil])
    (h' : ∀ e, K [.nil, erV (.err e)] = K' [.nil, erV (.err e)]) : ∀ (n i : Nat) (e : GoErr),
      attemptsEr retry fmt name o K n i e = attemptsEr retry fmt name o K' n i e
  | 0, i, e => by simp only [attemptsEr, finEr, h']
  | n + 1, i, e => by simp only [attemptsEr, finEr, h, h', attemptsEr_congr retry fmt name o K K' h h' n]

theorem opEr_congr (retry : GoErr → Bool) (fmt name : Bytes) (o : ErObj) (K K' : List V → Er) (h : K [erV o, .nil] = K' [erV o, .nil])
    (h' : ∀ e, K [.nil, erV (.err e)] = K' [.nil, erV (.err e)]) : opEr retry fmt name o K = opEr retry fmt name o K' := by
  simp only [opEr, finEr, h, h', attemptsEr_congr retry fmt name o K K' h h']

theorem query_call (retry : GoErr → Bool) (name query : Bytes) (args : List V) (K0 : List V → Er) :
    erCalls ctlEr retry 4 n!"Driver" n!"query" (erV .driver :: .tok :: .bytes name :: .bytes query :: args) K0 =
      opEr retry fmtQuery name .rows K0 := query_run retry name query args K0

/-- What is done with the answer of `query`. -/
def afterQuery (ok : Er) (er : GoErr → Er) : List V → Er
  | [_, .ext (.er (.err e))] => er e
  | _ => ok

/-- Read a row, after which the rows are closed. -/
def rowEr (none : GoErr) (fin : Er → Er) (err : GoErr → List V) (res : Int → Int → List V) : Er :=
  .next (.scan (fun a b => .close (fin (.ret (res a b)))) fun e => .close (fin (.ret (err e))))
    (.rowsErr (.close (fin (.ret (err none)))) fun e => .close (fin (.ret (err e))))

/-- Names of operations. -/
def nmRev : Bytes := [114, 101, 118, 95, 115, 113, 108]
/-- Same. -/
def nmSize : Bytes := [103, 101, 116, 95, 115, 105, 122, 101, 95, 115, 113, 108]

/-- `can't get current revision: aggregate query returned empty set` -/
def txtEmptySet : Bytes := "can't get current revision: aggregate query returned empty set".toUTF8.toList

theorem currentGo_tree (retry : GoErr → Bool) : currentGo retry =
    opEr retry fmtQuery nmRev .rows (afterQuery (rowEr (.leaf .plain txtEmptySet) (fun k => k) (fun e => [.int 0, erV (.err e)]) fun a _ => [.int a, .nil])
      fun e => .ret [.int 0, erV (.err e)]) := by
  unfold currentGo
  generalize hL : erCalls ctlEr retry 4 = L
  have hq := query_call retry nmRev
  rw [hL] at hq
  unfold nmRev at *
  go_nf
  go_env
  refine (hq [] [] _).trans ?_
  subst hL
  refine opEr_congr _ _ _ _ _ _ ?_ fun e => ?_
  · unfold afterQuery rowEr
    kernel_rfl
  · unfold afterQuery
    kernel_rfl

theorem getSizeGo_tree (retry : GoErr → Bool) : getSizeGo retry =
    opEr retry fmtQuery nmSize .rows (afterQuery (rowEr (.leaf .plain txtNoRows) (fun k => k) (fun e => [.int 0, erV (.err e)]) fun a _ => [.int a, .nil])
      fun e => .ret [.int 0, erV (.err e)]) := by
  unfold getSizeGo
  generalize hL : erCalls ctlEr retry 4 = L
  have hq := query_call retry nmSize
  rw [hL] at hq
  unfold nmSize at *
  go_nf
  go_env
  refine (hq [] [] _).trans ?_
  subst hL
  refine opEr_congr _ _ _ _ _ _ ?_ fun e => ?_
  · unfold afterQuery rowEr
    kernel_rfl
  · unfold afterQuery
    kernel_rfl

/-- Name of the operation. -/
def nmInterval : Bytes := [114, 101, 118, 105, 115, 105, 111, 110, 95, 105, 110, 116, 101, 114, 118, 97, 108, 95, 115, 113, 108]

/-- `cannot get compact revision: aggregate query returned no rows` -/
def txtNoCompact : Bytes := "cannot get compact revision: aggregate query returned no rows".toUTF8.toList

/-- What `GetCompactRevision` itself counts. -/
def alsoEr (label : Bytes) (k : Er) : Er :=
  .count n!"metricsOpLatency" nmInterval label (.count n!"metricsOpResult" nmInterval label (.count n!"metricsTxResult" nmInterval label k))

theorem getCompactGo_tree (retry : GoErr → Bool) : getCompactGo retry =
    opEr retry fmtQuery nmInterval .rows
      (afterQuery (rowEr (.leaf .plain txtNoCompact) (alsoEr lblSuccess) (fun e => [.int 0, .int 0, erV (.err e)]) fun a b => [.int a, .int b, .nil])
        fun e => alsoEr lblFail (.ret [.int 0, .int 0, erV (.err e)])) := by
  unfold getCompactGo
  generalize hL : erCalls ctlEr retry 4 = L
  have hq := query_call retry nmInterval
  rw [hL] at hq
  unfold nmInterval at *
  go_nf
  go_env
  refine (hq [] [] _).trans ?_
  subst hL
  refine opEr_congr _ _ _ _ _ _ ?_ fun e => ?_
  · unfold afterQuery rowEr alsoEr nmInterval
    kernel_rfl
  · unfold afterQuery alsoEr nmInterval
    kernel_rfl

/-- Name of the operation (`count_revision`). -/
def nmCount : Bytes := [99, 111, 117, 110, 116, 95, 114, 101, 118, 105, 115, 105, 111, 110]

theorem countGo_tree (retry : GoErr → Bool) (ver cur : Int) (key rangeEnd : Bytes) (revision : Int) : countGo retry ver cur key rangeEnd revision =
    opEr retry fmtQuery nmCount .rows (afterQuery (rowEr (.leaf .plain txtNoRows) (fun k => k) (fun e => [.int 0, erV (.err e)]) fun a _ => [.int a, .nil])
      fun e => .ret [.int 0, erV (.err e)]) := by
  unfold countGo
  generalize hL : erCalls ctlEr retry 4 = L
  have hq := query_call retry nmCount
  rw [hL] at hq
  unfold nmCount at *
  dsimp only
  cases rangeEnd <;> go_nf <;> go_env <;> cases decide (ver = cur) <;>
    (refine (hq [] [_, _, _] _).trans ?_
     subst hL
     refine opEr_congr _ _ _ _ _ _ ?_ fun e => ?_
     · unfold afterQuery rowEr
       kernel_rfl
     · unfold afterQuery
       kernel_rfl)

end Verif.Go
