import Verif.Lemmas.GoPreparedRun
/-!
# Executing concrete schedules of the goroutines of `/repo/pkg/database/prepared.go`
-/

namespace Verif.Go

/-- What happens next: a call begins, a goroutine does what its text does next, or what it does fails. -/
inductive PAct where
  | call (op : POp)
  | go (i : Nat)
  | fails (i : Nat) (e : ApiErr)

/-- The next action of a goroutine. -/
def PMem.go (m : PMem) (i : Nat) (d : Bool) : Pt → Option (PMem × Pt)
  | .rlock k => if m.writer = none then some ({ m with readers := i :: m.readers }, k) else none
  | .runlock k => some ({ m with readers := m.readers.erase i }, k)
  | .lock k => if m.writer = none ∧ m.readers = [] then some ({ m with writer := some i }, k) else none
  | .unlock k => some ({ m with writer := none }, k)
  | .getUnder k => some (m, k m.opened)
  | .dropUnder k => some ({ m with opened := false }, k)
  | .lookup q k => some (m, k (cacheGet m.cache q))
  | .store q s k =>
    match m.cache with
    | some l => some ({ m with cache := some (cacheSet l q s) }, k)
    | none => some (m, .panic)
  | .entries k => some (m, k (m.cache.getD []))
  | .dropCache k => some ({ m with cache := none }, k)
  | .prepare q ok _ => if m.dbCloses = 0 then some ({ m with prepared := m.prepared ++ [⟨i, d, q⟩] }, ok m.prepared.length) else none
  | .begin_ ok _ => if m.dbCloses = 0 then some ({ m with txs := m.txs + 1 }, ok m.txs) else none
  | .conn ok _ => if m.dbCloses = 0 then some (m, ok) else none
  | .closeStmt s ok _ => some ({ m with closed := m.closed ++ [s] }, ok)
  | .closeDb ok _ => some ({ m with dbCloses := m.dbCloses + 1 }, ok)
  | .exec query tx s args ok _ =>
    if tx = none → s ∉ m.closed ∧ m.dbCloses = 0 then
      some ({ m with executed := m.executed ++ [⟨i, query, tx, s, args⟩] }, ok m.executed.length)
    else none
  | _ => none

theorem PMem.go_step {m m' : PMem} {i : Nat} {d : Bool} {t t' : Pt} (h : m.go i d t = some (m', t')) : PtStep i d m t m' t' := by
  unfold PMem.go at h
  split at h
  · split at h
    · cases h; exact .rlock _ _ (by assumption)
    · cases h
  · cases h; exact .runlock _ _
  · split at h
    · rename_i hc; cases h; exact .lock _ _ hc.1 hc.2
    · cases h
  · cases h; exact .unlock _ _
  · cases h; exact .getUnder _ _
  · cases h; exact .dropUnder _ _
  · cases h; exact .lookup _ _ _
  · split at h
    · cases h; exact .store _ _ _ _ _ (by assumption)
    · cases h; exact .storeNil _ _ _ _ (by assumption)
  · cases h; exact .entries _ _ _ (.refl _)
  · cases h; exact .dropCache _ _
  · split at h
    · cases h; exact .prepare _ _ _ _ (by assumption)
    · cases h
  · split at h
    · cases h; exact .begin_ _ _ _ (by assumption)
    · cases h
  · split at h
    · cases h; exact .conn _ _ _ (by assumption)
    · cases h
  · cases h; exact .closeStmt _ _ _ _
  · cases h; exact .closeDb _ _ _
  · split at h
    · rename_i hc; cases h; exact .exec _ _ _ _ _ _ _ hc
    · cases h
  · cases h

/-- It fails. -/
def PMem.fails (m : PMem) (e : ApiErr) : Pt → Option (PMem × Pt)
  | .prepare _ _ er => some (m, er e)
  | .begin_ _ er => some (m, er e)
  | .conn _ er => some (m, er e)
  | .closeStmt s _ er => some ({ m with closed := m.closed ++ [s], failures := m.failures ++ [e] }, er e)
  | .closeDb _ er => some ({ m with dbCloses := m.dbCloses + 1, failures := m.failures ++ [e] }, er e)
  | .exec _ _ _ _ _ er => some (m, er e)
  | _ => none

theorem PMem.fails_step {m m' : PMem} {i : Nat} {d : Bool} {e : ApiErr} {t t' : Pt} (h : m.fails e t = some (m', t')) : PtStep i d m t m' t' := by
  unfold PMem.fails at h
  split at h
  · cases h; exact .prepareFails _ _ _ _ _
  · cases h; exact .beginFails _ _ _ _
  · cases h; exact .connFails _ _ _ _
  · cases h; exact .closeStmtFails _ _ _ _ _
  · cases h; exact .closeDbFails _ _ _ _
  · cases h; exact .execFails _ _ _ _ _ _ _ _
  · cases h

/-- One action. -/
def Pc.act (c : Pc) : PAct → Option Pc
  | .call op => some { c with ts := c.ts ++ [(op, op.go)] }
  | .go i =>
    match c.ts[i]? with
    | some (op, t) =>
      match c.mem.go i op.direct t with
      | some (m', t') => some { mem := m', ts := c.ts.set i (op, t') }
      | none => none
    | none => none
  | .fails i e =>
    match c.ts[i]? with
    | some (op, t) =>
      match c.mem.fails e t with
      | some (m', t') => some { mem := m', ts := c.ts.set i (op, t') }
      | none => none
    | none => none

theorem Pc.act_step {c d : Pc} {a : PAct} (h : c.act a = some d) : PcStep c d := by
  cases a with
  | call op => cases h; exact .call _ _
  | go i =>
    unfold Pc.act at h
    dsimp only at h
    split at h
    · split at h
      · cases h; exact .thread _ _ _ _ _ _ (by assumption) (PMem.go_step (by assumption))
      · cases h
    · cases h
  | fails i e =>
    unfold Pc.act at h
    dsimp only at h
    split at h
    · split at h
      · cases h; exact .thread _ _ _ _ _ _ (by assumption) (PMem.fails_step (by assumption))
      · cases h
    · cases h

/-- Several. -/
def Pc.acts (c : Pc) : List PAct → Option Pc
  | [] => some c
  | a :: as =>
    match c.act a with
    | some d => d.acts as
    | none => none

theorem Pc.acts_reachable {c d : Pc} {as : List PAct} (hc : PcReachable c) (h : c.acts as = some d) : PcReachable d := by
  induction as generalizing c with
  | nil => cases h; exact hc
  | cons a as ih =>
    unfold Pc.acts at h
    split at h
    · exact ih (.step hc (Pc.act_step (by assumption))) h
    · cases h

/-- A schedule from the beginning, and what is to hold at its end. -/
def prepCheck (as : List PAct) (p : Pc → Bool) : Bool :=
  match Pc.init.acts as with
  | some c => p c
  | none => false

theorem prepCheck_reach {as : List PAct} {p : Pc → Bool} (h : prepCheck as p = true) : ∃ c, PcReachable c ∧ p c = true := by
  unfold prepCheck at h
  split at h
  · exact ⟨_, Pc.acts_reachable .init (by assumption), h⟩
  · cases h

/-- So many actions of a goroutine. -/
def goes (i n : Nat) : List PAct := List.replicate n (.go i)

end Verif.Go
