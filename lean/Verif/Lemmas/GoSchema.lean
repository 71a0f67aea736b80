import Verif.Lemmas.GoNf
import Verif.Model.GoSchema
/-!
# What the texts of `schema.go`, `setup` and `NewDriver` do
-/

namespace Verif.Go

open Verif.GoText.Schema

/-- `Major`, `Minor`, `NewSchemaVersion` of integers. -/
def majorI (v : Int) : Int := wrap16 (wrap32 v / 65536)
/-- Same. -/
def minorI (v : Int) : Int := wrap16 v
/-- Same. -/
def packI (a b : Int) : Int := wrap32 (orInt (wrap32 a * 65536) (wrap32 b))

/-- Statements one after the other. -/
def chainT : List SchemaStmt → Su → (DbErr → Su) → Su
  | [], k, _ => k
  | st :: sts, k, er => .stmt st (fun _ => chainT sts k er) er

/-- `CompatibleWith` with the version of the database. -/
def compT (v : Int) (yes no : Su) : Su :=
  cond (decide (majorI v = 0)) (cond (decide (minorI v = 0)) yes (cond (!decide (majorI v = majorI 65536)) no yes))
    (cond (!decide (majorI v = majorI 65536)) no yes)

/-- The end of a transaction and of a connection. -/
def endT (k : Su) : Su := .rollback (.close k)

/-- Commit. -/
def commitT (ok : Int → Su) (er : Int → DbErr → Su) (v : Int) : Su := .commit (endT (ok v)) fun e => endT (er v e)

/-- The second part of the migration. -/
def migrate2T (ok : Int → Su) (er : Int → DbErr → Su) (v : Int) : Su :=
   chainT [.dropIndex .name, .dropIndex .prevRevision, .createIndex .nameDel, .setVersion 65536#32] (commitT ok er v) fun e => endT (er v e)

/-- The migration and what comes after it. -/
def migrateT (ok : Int → Su) (er : Int → DbErr → Su) (v : Int) : Su :=
  .stmt .query (fun n =>
      cond (!(!decide (n = 0)))
        (chainT [.createTable, .createIndex .name, .createIndex .prevRevision] (migrate2T ok er v) fun e => endT (er v e))
        (chainT [.dropIndex .name, .dropIndex .prevRevision, .createIndex .name, .createIndex .prevRevision] (migrate2T ok er v) fun e => endT (er v e)))
      fun e => endT (er v e)

/-- `setup`. -/
def setupT (ok : Int → Su) (inc : Su) (er : Int → DbErr → Su) : Su :=
  .conn (.version false (fun v =>
     compT v (cond (decide (65536 ≤ v)) (.close (ok v))
       (.begin (.version true (fun v => compT v (cond (decide (65536 ≤ v)) (endT (ok v))
             (cond (decide (v = packI 0 0)) (migrateT ok er v) (commitT ok er v)))
                (endT inc))
          fun e => endT (er 0 e))
        fun e => .close (er 0 e)))
     (.close (ok v)))
    fun e => .close (er 0 e)) fun e => er 0 e

/-- The functions after which `setup` has ended. -/
theorem setupT_congr {ok ok' : Int → Su} {inc inc' : Su} {er er' : Int → DbErr → Su} (h : ∀ v, ok v = ok' v) (h' : inc = inc') (h'' : ∀ v e, er v e = er' v e) :
    setupT ok inc er = setupT ok' inc' er' := by
  rw [funext h, h', funext fun v => funext (h'' v)]

theorem waitS_congr {f f' g g' : Su} (h : f = f') (h' : g = g') : Su.wait f g = .wait f' g' := by rw [h, h']

theorem cond_congrU {b : Bool} {x y x' y' : Su} (h : x = x') (h' : y = y') : cond b x y = cond b x' y' := by rw [h, h']

/-- A loop with a state. -/
theorem loopU_eq {A : Type} (cnd : Store Ext → (V → Store Ext → Su) → Su) (body : Store Ext → (Store Ext → Su) → (Store Ext → Su) → Su)
    (k : Store Ext → Su) (st : A → Store Ext) (step : A → (A → Su) → Su)
    (h : ∀ a (K : Store Ext → Su), (cnd (st a) fun c s => match c with | .bool b => bif b then body s K k else k s | _ => .stuck) = step a fun a' => K (st a')) :
    ∀ N a, loopStd .stuck cnd body k N (st a) = Nat.rec (fun _ => .stuck) (fun _ r a => step a r) N a := by
  intro N
  induction N with
  | zero => intro a; rfl
  | succ n ih =>
    intro a
    rw [loopStd]
    refine Eq.trans ?_ ((h a fun s => loopStd .stuck cnd body k n s).trans ?_)
    · congr 1
      funext c s
      cases c <;> rfl
    · exact congrArg (step a) (funext ih)

/-- What `NewDriver` answers. -/
def driverV (cfg : V) (v : Int) : V := .imm (.struct n!"Driver" [(n!"config", cfg), (n!"currentSchemaVersion", .int v)])

/-- After the loop. -/
def finT (K : List V → Su) (cfg : V) (v : Int) (e : Option DbErr) : Su :=
  match e with
  | none => K [driverV cfg v, .nil]
  | some e => K [.nil, schErrV e]

/-- An iteration. -/
def attemptT (K : List V → Su) (cfg : V) (a : Int × Int × Option DbErr) (r : Int × Int × Option DbErr → Su) : Su :=
  cond (decide (a.1 < 300))
    (setupT (fun v => finT K cfg v none) (K [.nil, schV .incompatible])
      fun v e => .wait (K [.nil, schErrV .canceled]) (r (a.1 + 1, v, some e)))
    (finT K cfg a.2.1 a.2.2)

section
variable (ct : Control Ext Su) (N : Nat) (K : List V → Su)

theorem setup_run : schemaCalls ct N 4 0 n!"setup" [schV .ctx, schV .database] K =
    setupT (fun v => K [.int v, .nil]) (K [.int 0, schV .incompatible]) fun v e => K [.int v, schErrV e] := by
  unfold setupT compT migrateT
  kernel_rfl

/-- The store in the loop. -/
def loopSt (cfg : V) (a : Int × Int × Option DbErr) : Store Ext :=
  { vars := [schV .ctx, cfg, .nil, .nil, .int 300, (match a.2.2 with | none => .nil | some e => schErrV e), .int a.2.1, .int a.1] }

theorem newDriver_run (L : Calls Su) (hL : ∀ K, L 0 n!"setup" [schV .ctx, schV .database] K =
      setupT (fun v => K [.int v, .nil]) (K [.int 0, schV .incompatible]) fun v e => K [.int v, schErrV e]) (b : Bool) :
    f_NewDriver.run (schemaHost (Control.std .stuck) N L) [schV .ctx, schV (.config true b)] (done K) =
      Nat.rec (fun _ => .stuck) (fun _ r a => attemptT K (schV (.config true b)) a r) N ((0, 0, none) : Int × Int × Option DbErr) := by
  generalize hct : Control.std Su.stuck = ct
  have hl : ct.loop = loopStd .stuck := by rw [← hct]; rfl
  cases b
  · go_nf
    go_env
    go_name F G k
    rw [hl]
    refine Eq.trans (b := loopStd .stuck F G k N (loopSt (schV (.config true false)) (0, 0, none))) (by kernel_rfl) ?_
    refine loopU_eq F G k (loopSt (schV (.config true false))) (attemptT K (schV (.config true false))) ?_ N _
    intro a K'
    obtain ⟨i, v, e⟩ := a
    unfold attemptT
    subst hF hG hk
    go_env
    go_nf
    refine cond_congrU ((hL _).trans (setupT_congr (fun v => ?_) ?_ fun v e => ?_)) ?_
    · kernel_rfl
    · kernel_rfl
    · go_env
      go_nf
      refine waitS_congr ?_ ?_
      · go_env
        go_nf
        rfl
      · go_env
        go_nf
        refine congrArg K' ?_
        show _ = ({ vars := _ } : Store Ext)
        rfl
    · cases e
      · kernel_rfl
      · kernel_rfl
  · go_nf
    go_env
    go_name F G k
    rw [hl]
    refine Eq.trans (b := loopStd .stuck F G k N (loopSt (schV (.config true true)) (0, 0, none))) (by kernel_rfl) ?_
    refine loopU_eq F G k (loopSt (schV (.config true true))) (attemptT K (schV (.config true true))) ?_ N _
    intro a K'
    obtain ⟨i, v, e⟩ := a
    unfold attemptT
    subst hF hG hk
    go_env
    go_nf
    refine cond_congrU ((hL _).trans (setupT_congr (fun v => ?_) ?_ fun v e => ?_)) ?_
    · kernel_rfl
    · kernel_rfl
    · go_env
      go_nf
      refine waitS_congr ?_ ?_
      · go_env
        go_nf
        rfl
      · go_env
        go_nf
        refine congrArg K' ?_
        show _ = ({ vars := _ } : Store Ext)
        rfl
    · cases e
      · kernel_rfl
      · kernel_rfl

/-- The attempts that are left. -/
def attemptsT (K : List V → Su) (cfg : V) : Nat → Int → Option DbErr → Su
  | 0, v, e => finT K cfg v e
  | j + 1, _, _ => setupT (fun v => finT K cfg v none) (K [.nil, schV .incompatible])
      fun v e => .wait (K [.nil, schErrV .canceled]) (attemptsT K cfg j v (some e))

theorem attempts_eq (cfg : V) : ∀ (j N : Nat) (i v : Int) (e : Option DbErr), i + j = 300 → j < N →
    (Nat.rec (fun _ => .stuck) (fun _ r a => attemptT K cfg a r) N ((i, v, e) : Int × Int × Option DbErr) : Su) = attemptsT K cfg j v e := by
  intro j
  induction j with
  | zero =>
    intro N i v e h hN
    obtain ⟨M, rfl⟩ : ∃ M, N = M + 1 := ⟨N - 1, by omega⟩
    show attemptT K cfg (i, v, e) _ = _
    unfold attemptT
    rw [decide_eq_false (by omega)]
    rfl
  | succ j ih =>
    intro N i v e h hN
    obtain ⟨M, rfl⟩ : ∃ M, N = M + 1 := ⟨N - 1, by omega⟩
    show attemptT K cfg (i, v, e) _ = _
    unfold attemptT
    rw [decide_eq_true (by omega)]
    refine setupT_congr (fun v => rfl) rfl fun v e => ?_
    exact congrArg (Su.wait _) (ih M (i + 1) v (some e) (by omega) (by omega))

end

end Verif.Go
