import Verif.Lemmas.GoDriver
/-!
# Compaction in the driver, and all its functions together
-/

namespace Verif.Go

open Verif.GoText

section
variable {Y : Type}

/-- The retry loop of `Compact`: `sta err i` is the store. -/
theorem loopG_compact (S : Store Ext → SProg Y) (stuck : SProg Y) (sta : V → Int → Store Ext) (a b : Int)
    (F : Store Ext → (V → Store Ext → SProg Y) → SProg Y) (G : Store Ext → (Store Ext → SProg Y) → (Store Ext → SProg Y) → SProg Y)
    (k : Store Ext → SProg Y) (ok : Prog Y) (er : ApiErr → Prog Y)
    (hF : ∀ err i kk, F (sta err i) kk = kk (.bool (decide (i < 500))) (sta err i)) (c : Cur)
    (hG : ∀ err i kc kb, (G (sta err i) kc kb).run c = .stmt (fun db => tryCompactTx db a b) fun o _ =>
      match o with
      | .ok => (kb (sta .nil i)).run c
      | .trunc _ => (kb (sta .nil i)).run c
      | .fail e => if e.retry then (kc (sta (.ext (.err (.db e))) (i + 1))).run c else (kb (sta (.ext (.err (.db e))) i)).run c
      | .lost e => if e.retry then (kc (sta (.ext (.err (.db e))) (i + 1))).run c else (kb (sta (.ext (.err (.db e))) i)).run c)
    (hk1 : ∀ i, (k (sta .nil i)).run c = ok) (hk2 : ∀ i e, (k (sta (.ext (.err e)) i)).run c = er e)
    (n : Nat) (i : Int) (hi : i + n = 500) (err : V)
    (h0 : n = 0 → err = .ext (.err (.db .busy))) :
    (loopG S stuck F G k (n + 1) (sta err i)).run c = hand (compactLoop a b n) (fun _ => ok) er := by
  induction n generalizing i err with
  | zero =>
    obtain rfl := h0 rfl
    have hd : decide (i < 500) = false := by simp; omega
    simp only [loopG, hF, hd, cond_false]
    rw [hk2]
    rfl
  | succ n ih =>
    have hd : decide (i < 500) = true := by simp; omega
    rw [loopG]
    simp only [hF, hd, cond_true]
    rw [hG, compactLoop]
    show _ = Prog.stmt (fun db => tryCompactTx db a b) fun o db => hand _ _ _
    congr 1
    funext o db
    have hstep : ∀ e : DbErr, e.retry = true →
        (loopG S stuck F G k (n + 1) (sta (.ext (.err (.db e))) (i + 1))).run c = hand (compactLoop a b n) (fun _ => ok) er := by
      intro e he
      obtain rfl : e = .busy := by cases e <;> simp [DbErr.retry] at he ⊢
      exact ih (i + 1) (by omega) _ fun _ => rfl
    cases o with
    | ok => exact hk1 _
    | trunc m => exact hk1 _
    | fail e =>
      by_cases he : e.retry = true
      · simp only [he, if_true]; exact hstep e he
      · simp only [he]; exact hk2 _ _
    | lost e =>
      by_cases he : e.retry = true
      · simp only [he, if_true]; exact hstep e he
      · simp only [he]; exact hk2 _ _

/-- What `Compact` calls. -/
structure CompactOk (L : Calls (SProg Y)) : Prop where
  rev : ∀ ver kk c, (L n!"Driver" n!"GetCompactRevision" [driverRV ver, .tok] kk).run c =
    hand Verif.Driver.getCompactRevision (fun r => (kk [.int r.1, .int r.2, .nil]).run (.closed c.calls))
      fun e => (kk [.int 0, .int 0, .ext (.err e)]).run (.closed c.calls)
  tryOnce : ∀ ver a b kk n, (L n!"Driver" n!"tryCompact" [driverRV ver, .tok, .int a, .int b] kk).run (.closed n) =
    .stmt (fun db => tryCompactTx db a b) fun o _ =>
      match o with
      | .ok => (kk [.nil]).run (.closed n)
      | .trunc _ => (kk [.nil]).run (.closed n)
      | .fail e => (kk [.ext (.err (.db e))]).run (.closed n)
      | .lost e => (kk [.ext (.err (.db e))]).run (.closed n)

variable (L : Calls (SProg Y)) (K : List V → SProg Y) (stuck : SProg Y) (D : DbOps (SProg Y))

theorem Compact_link (hL : CompactOk L) (ver rev : Int) (c : Cur) :
    (Driver.f_Compact.run (driverHost (Control.lim stuck) D progCursor L) [driverRV ver, .tok, .int rev] (done K)).run c =
    hand (Verif.Driver.compactSqlite rev) (fun _ => (K [.nil]).run (.closed c.calls)) fun e => (K [.ext (.err e)]).run (.closed c.calls) := by
  unfold Verif.Driver.compactSqlite
  rw [hand_andThen]
  generalize hct : Control.lim stuck = ct
  go_nf
  refine (hL.rev ver _ _).trans ?_
  refine hand_congr ?_ (fun _ => by kernel_rfl)
  rintro ⟨a, b⟩
  have hlp : ct.loop = loopLim stuck := by rw [← hct]; rfl
  by_cases h1 : a ≥ rev
  · simp only [h1, if_true]
    go_nf
    refine srun_t (by simpa using h1) ?_
    rfl
  · by_cases h2 : rev > b
    · simp only [h1, h2, if_true, if_false]
      go_nf
      refine srun_f (by simpa using h1) (srun_t (by simpa using h2) ?_)
      go_name F G k
      rw [hlp]
      refine loopLim_eq (f := 0) 501 fun S => ?_
      refine loopG_compact S stuck (fun err i => { vars := [driverRV ver, .tok, .int b, err, .tok, .int a, .int b, .int i], defers := _ }) a b
        F G k ((K [.nil]).run (.closed c.calls)) (fun e => (K [.ext (.err e)]).run (.closed c.calls)) ?_ (.closed c.calls) ?_ ?_ ?_ 500 0 rfl _ (fun h => by cases h)
      · intro err i kk
        subst hF
        kernel_rfl
      · intro err i kc kb
        subst hG
        go_nf
        refine (hL.tryOnce ver a b _ _).trans ?_
        congr 1
        funext o db
        cases o with
        | ok => kernel_rfl
        | trunc => kernel_rfl
        | fail e => cases e <;> kernel_rfl
        | lost e => cases e <;> kernel_rfl
      · intro i
        subst hk
        kernel_rfl
      · intro i e
        subst hk
        kernel_rfl
    · simp only [h1, h2, if_false]
      go_nf
      refine srun_f (by simpa using h1) (srun_f (by simpa using h2) ?_)
      go_name F G k
      rw [hlp]
      refine loopLim_eq (f := 0) 501 fun S => ?_
      refine loopG_compact S stuck (fun err i => { vars := [driverRV ver, .tok, .int rev, err, .tok, .int a, .int b, .int i], defers := _ }) a rev
        F G k ((K [.nil]).run (.closed c.calls)) (fun e => (K [.ext (.err e)]).run (.closed c.calls)) ?_ (.closed c.calls) ?_ ?_ ?_ 500 0 rfl _ (fun h => by cases h)
      · intro err i kk
        subst hF
        kernel_rfl
      · intro err i kc kb
        subst hG
        go_nf
        refine (hL.tryOnce ver a rev _ _).trans ?_
        congr 1
        funext o db
        cases o with
        | ok => kernel_rfl
        | trunc => kernel_rfl
        | fail e => cases e <;> kernel_rfl
        | lost e => cases e <;> kernel_rfl
      · intro i
        subst hk
        kernel_rfl
      · intro i e
        subst hk
        kernel_rfl

/-! ### dqlite -/

variable (ct : Control Ext (SProg Y)) (S : Nm → List V → (List V → SProg Y) → SProg Y)

theorem isLocalNodeLeader_link (self : Int) (ans : Nat → LeaderAns) (c : Cur) :
    (Dqlite.f_isLocalNodeLeader.run (dqliteHost ct (progApp self ans) S L) [dqliteRV, .tok] (done K)).run c =
      match ans c.calls with
      | .leader i => (K [.bool (decide (self = i)), .nil]).run (.closed (c.calls + 1))
      | .noLeader e => (K [.bool false, .ext (.err (.db e))]).run (.closed (c.calls + 1))
      | .noClient e => (K [.bool false, .ext (.err (.db e))]).run (.closed (c.calls + 1)) := by
  generalize hA : progApp self ans = A
  go_nf
  subst hA
  simp only [progApp]
  cases h : ans c.calls
  all_goals
    simp only
    rfl

theorem DqliteCompact_link (self : Int) (ans : Nat → LeaderAns) (rev : Int) (c : Cur)
    (hL : ∀ kk c, (L n!"Driver" n!"isLocalNodeLeader" [dqliteRV, .tok] kk).run c =
      match ans c.calls with
      | .leader i => (kk [.bool (decide (self = i)), .nil]).run (.closed (c.calls + 1))
      | .noLeader e => (kk [.bool false, .ext (.err (.db e))]).run (.closed (c.calls + 1))
      | .noClient e => (kk [.bool false, .ext (.err (.db e))]).run (.closed (c.calls + 1)))
    (hS : ∀ kk c, (S n!"Compact" [.tok, .int rev] kk).run c =
      hand (Verif.Driver.compactSqlite rev) (fun _ => (kk [.nil]).run (.closed c.calls)) fun e => (kk [.ext (.err e)]).run (.closed c.calls)) :
    (Dqlite.f_Compact.run (dqliteHost ct (progApp self ans) S L) [dqliteRV, .tok, .int rev] (done K)).run c =
    hand (Verif.Driver.compact ((ans c.calls).isLocal self) rev) (fun _ => (K [.nil]).run (.closed (c.calls + 1)))
      fun e => (K [.ext (.err e)]).run (.closed (c.calls + 1)) := by
  generalize hA : progApp self ans = A
  go_nf
  refine (hL _ c).trans ?_
  cases ans c.calls with
  | noClient e =>
    go_nf
    refine (hS _ _).trans ?_
    exact hand_congr (fun _ => by kernel_rfl) (fun _ => by kernel_rfl)
  | noLeader e =>
    go_nf
    refine (hS _ _).trans ?_
    exact hand_congr (fun _ => by kernel_rfl) (fun _ => by kernel_rfl)
  | leader i =>
    by_cases h : self = i
    · simp only [LeaderAns.isLocal, h, decide_true]
      go_nf
      refine (hS _ _).trans ?_
      exact hand_congr (fun _ => by kernel_rfl) (fun _ => by kernel_rfl)
    · simp only [LeaderAns.isLocal, h, decide_false]
      kernel_rfl
end
end Verif.Go
