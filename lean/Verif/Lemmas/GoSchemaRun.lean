import Verif.Lemmas.GoSchema
import Verif.Props.Schema
/-!
# Running the trees of `setup` and `NewDriver` gives what the model of `schema.go` gives
-/

namespace Verif.Go

theorem wrap32_toInt (v : BitVec 32) : wrap32 v.toInt = v.toInt := by
  have := v.toInt_bmod_cancel
  exact this

theorem minor_toInt (v : BitVec 32) : minorI v.toInt = (versionMinor v).toInt := by
  unfold minorI versionMinor wrap16
  rw [BitVec.truncate_eq_setWidth, BitVec.toInt_setWidth, BitVec.toInt_eq_toNat_bmod]
  exact Int.bmod_bmod_of_dvd (by decide)

theorem major_toInt (v : BitVec 32) : majorI v.toInt = (versionMajor v).toInt := by
  unfold majorI versionMajor wrap16
  rw [wrap32_toInt]
  have h := minor_toInt (v.sshiftRight 16)
  unfold minorI versionMinor wrap16 at h
  rw [← h, BitVec.toInt_sshiftRight, Int.shiftRight_eq_div_pow]
  rfl


theorem wrap32_toInt64 (x : BitVec 64) : wrap32 x.toInt = (x.setWidth 32).toInt := by
  rw [BitVec.toInt_setWidth, BitVec.toInt_eq_toNat_bmod]
  exact Int.bmod_bmod_of_dvd (by decide)

theorem setWidth_ofInt (n : Int) : (BitVec.ofInt 64 n).setWidth 32 = BitVec.ofInt 32 n := by
  apply BitVec.eq_of_toInt_eq
  rw [← wrap32_toInt64, BitVec.toInt_ofInt, BitVec.toInt_ofInt]
  exact Int.bmod_bmod_of_dvd (by decide)

theorem wrap32_16 (x : BitVec 16) : wrap32 x.toInt = x.toInt := by
  have r1 := @BitVec.toInt_lt 16 x
  have r2 := @BitVec.le_toInt 16 x
  unfold wrap32
  rw [Int.bmod_def]
  omega

theorem pack_toInt32 (major minor : BitVec 16) : packI major.toInt minor.toInt = (packVersion major minor).toInt := by
  unfold packI orInt packVersion
  rw [wrap32_toInt64, wrap32_16, wrap32_16, BitVec.setWidth_or, setWidth_ofInt, setWidth_ofInt, BitVec.ofInt_mul, BitVec.shiftLeft_eq_mul_twoPow]
  rfl

theorem toInt_zero16 (x : BitVec 16) : x.toInt = 0 ↔ x = 0 := by
  constructor
  · intro h
    exact BitVec.eq_of_toInt_eq (by rw [h]; rfl)
  · rintro rfl
    rfl

theorem current_major : majorI 65536 = (versionMajor currentVersion).toInt := by decide

theorem current_le (v : BitVec 32) : decide ((65536 : Int) ≤ v.toInt) = currentVersion.sle v := by
  unfold BitVec.sle
  rw [show currentVersion.toInt = 65536 by decide]

theorem zero_pack (v : BitVec 32) : decide (v.toInt = packI 0 0) = decide (v = packVersion 0 0) := by
  rw [show packI 0 0 = (packVersion 0 0).toInt by decide]
  exact decide_eq_decide.mpr BitVec.toInt_inj

theorem comp_toInt (v : BitVec 32) (yes no : Su) : compT v.toInt yes no = cond (versionCompatible v currentVersion) yes no := by
  have hv : versionCompatible v currentVersion =
      (decide (versionMajor v = 0) && decide (versionMinor v = 0) || decide (versionMajor v = versionMajor currentVersion)) := by
    unfold versionCompatible
    by_cases h : versionMajor v = 0 ∧ versionMinor v = 0
    · rw [if_pos h, decide_eq_true h.1, decide_eq_true h.2]
      rfl
    · rw [if_neg h, ← Bool.decide_and, decide_eq_false h]
      rfl
  unfold compT
  rw [hv, current_major, major_toInt, minor_toInt, decide_eq_decide.mpr (toInt_zero16 _), decide_eq_decide.mpr (toInt_zero16 _),
    decide_eq_decide.mpr (BitVec.toInt_inj (x := versionMajor v) (y := versionMajor currentVersion))]
  cases decide (versionMajor v = 0) <;> cases decide (versionMinor v = 0) <;> cases decide (versionMajor v = versionMajor currentVersion) <;> rfl

theorem run_stmt (E : SuEnv) {st : SchemaStmt} {s : SuSt} {w : SchemaDB} (hw : s.work = some w) (k : Int → Su) (er : DbErr → Su) :
    runSu E (.stmt st k er) s = match (E.faults s.i).stmts s.n with
        | some e => runSu E (er e) s
        | none => match st.run w with
          | .error e => runSu E (er e) s
          | .ok w' => runSu E (k (if w.kine.isSome then 1 else 0)) { s with work := some w', n := s.n + 1 } := by
  rw [runSu, hw]
  rfl

theorem run_end (E : SuEnv) (k : Su) (s : SuSt) : runSu E (endT k) s = runSu E (.close k) { s with work := none } := by
  rw [endT, runSu]

/-- A database in which statements have been executed one after the other, or the first failure. -/
theorem run_chain (E : SuEnv) (k : Su) (er : DbErr → Su) : ∀ (sts : List SchemaStmt) (s : SuSt) (w : SchemaDB), s.work = some w →
    (∃ w', runSchema (E.faults s.i).stmts s.n sts w = .ok w' ∧
      runSu E (chainT sts k fun e => endT (er e)) s = runSu E k { s with work := some w', n := s.n + sts.length }) ∨
    ∃ e n, runSchema (E.faults s.i).stmts s.n sts w = .error e ∧
      runSu E (chainT sts k fun e => endT (er e)) s = runSu E (.close (er e)) { s with work := none, n := n } := by
  intro sts
  induction sts with
  | nil =>
    intro s w hw
    refine Or.inl ⟨w, rfl, ?_⟩
    show runSu E k s = _
    rw [← hw]
    rfl
  | cons st sts ih =>
    intro s w hw
    unfold chainT
    rw [run_stmt E hw]
    unfold runSchema
    cases hf : (E.faults s.i).stmts s.n with
    | some e => exact Or.inr ⟨e, s.n, rfl, run_end E _ _⟩
    | none =>
      dsimp only
      cases hr : st.run w with
      | error e => exact Or.inr ⟨e, s.n, rfl, run_end E _ _⟩
      | ok w' =>
        dsimp only
        rcases ih { s with work := some w', n := s.n + 1 } w' rfl with ⟨w2, h1, h2⟩ | ⟨e, n, h1, h2⟩
        · refine Or.inl ⟨w2, h1, h2.trans ?_⟩
          rw [show s.n + 1 + sts.length = s.n + (st :: sts).length by rw [List.length_cons]; omega]
        · exact Or.inr ⟨e, n, h1, h2⟩

theorem runSchema_append_ok {f : Nat → Option DbErr} {a b : List SchemaStmt} : ∀ {n : Nat} {d d1 : SchemaDB}, runSchema f n a d = .ok d1 →
    runSchema f n (a ++ b) d = runSchema f (n + a.length) b d1 := by
  induction a with
  | nil =>
    intro n d d1 h
    cases h
    rfl
  | cons s ss ih =>
    intro n d d1 h
    obtain ⟨d2, h1, h2⟩ := runSchema_cons h
    rw [List.cons_append, runSchema]
    rw [runSchema] at h
    cases hf : f n with
    | some e => rw [hf] at h; cases h
    | none =>
      rw [h1]
      dsimp only
      rw [ih h2, List.length_cons, show n + 1 + ss.length = n + (ss.length + 1) by omega]

theorem runSchema_append_err {f : Nat → Option DbErr} {a b : List SchemaStmt} {e : DbErr} : ∀ {n : Nat} {d : SchemaDB}, runSchema f n a d = .error e →
    runSchema f n (a ++ b) d = .error e := by
  induction a with
  | nil =>
    intro n d h
    cases h
  | cons s ss ih =>
    intro n d h
    rw [List.cons_append]
    unfold runSchema at h ⊢
    cases hf : f n with
    | some e => rw [hf] at h; exact h
    | none =>
      rw [hf] at h
      dsimp only at h ⊢
      cases hr : s.run d with
      | error e => rw [hr] at h; exact h
      | ok d1 =>
        rw [hr] at h
        exact ih h

/-- The migration in a transaction on `d`. -/
theorem run_migrate (E : SuEnv) (ok : Int → Su) (er : Int → DbErr → Su) (v : Int) (s : SuSt) (d : SchemaDB) (hw : s.work = some d) (hn : s.n = 0) :
    (∃ w' n, runSchema (E.faults s.i).stmts 0 (migration d) d = .ok w' ∧
      runSu E (migrateT ok er v) s = runSu E (commitT ok er v) { s with work := some w', n := n }) ∨
    ∃ e n, runSchema (E.faults s.i).stmts 0 (migration d) d = .error e ∧
      runSu E (migrateT ok er v) s = runSu E (.close (er v e)) { s with work := none, n := n } := by
  unfold migrateT
  rw [run_stmt E hw]
  have hm : ∀ l, schemaV0_1 d = .query :: l → runSchema (E.faults s.i).stmts 0 (migration d) d =
      match (E.faults s.i).stmts 0 with
      | some e => .error e
      | none => runSchema (E.faults s.i).stmts 1 (l ++ (schemaV1_0 ++ [.setVersion currentVersion])) d := by
    intro l hl
    unfold migration
    rw [hl, List.cons_append, List.cons_append, List.append_assoc, runSchema]
    rfl
  have two : ∀ l, schemaV0_1 d = .query :: l → (E.faults s.i).stmts 0 = none →
      (∃ w' n, runSchema (E.faults s.i).stmts 0 (migration d) d = .ok w' ∧
        runSu E (chainT l (migrate2T ok er v) fun e => endT (er v e)) { s with work := some d, n := 1 } = runSu E (commitT ok er v) { s with work := some w', n := n }) ∨
      ∃ e n, runSchema (E.faults s.i).stmts 0 (migration d) d = .error e ∧
        runSu E (chainT l (migrate2T ok er v) fun e => endT (er v e)) { s with work := some d, n := 1 } = runSu E (.close (er v e)) { s with work := none, n := n } := by
    intro l hl hf
    rw [hm l hl, hf]
    dsimp only
    rcases run_chain E (migrate2T ok er v) (er v) l { s with work := some d, n := 1 } d rfl with ⟨w1, h1, h2⟩ | ⟨e, n, h1, h2⟩
    · rw [runSchema_append_ok h1, h2]
      unfold migrate2T
      rcases run_chain E (commitT ok er v) (er v) (schemaV1_0 ++ [.setVersion currentVersion]) { s with work := some w1, n := 1 + l.length } w1 rfl with ⟨w2, h3, h4⟩ | ⟨e, n, h3, h4⟩
      · exact Or.inl ⟨w2, _, h3, h4⟩
      · exact Or.inr ⟨e, n, h3, h4⟩
    · exact Or.inr ⟨e, n, runSchema_append_err h1, h2⟩
  rw [hn]
  cases hf : (E.faults s.i).stmts 0 with
  | some e =>
    refine Or.inr ⟨e, 0, ?_, ?_⟩
    · rw [hm _ rfl, hf]
    · dsimp only
      rw [run_end, ← hn]
  | none =>
    dsimp only
    cases hk : d.kine with
    | none =>
      exact two [.createTable, .createIndex .name, .createIndex .prevRevision] (by unfold schemaV0_1; rw [hk]; rfl) hf
    | some t =>
      exact two [.dropIndex .name, .dropIndex .prevRevision, .createIndex .name, .createIndex .prevRevision] (by unfold schemaV0_1; rw [hk]; rfl) hf

theorem migrateless {d : SchemaDB} (h1 : versionCompatible d.version currentVersion = true) (h2 : currentVersion.sle d.version = false) :
    d.version = packVersion 0 0 := by
  have hle : ¬ (65536 : Int) ≤ d.version.toInt := by
    have := current_le d.version
    rw [h2] at this
    exact of_decide_eq_false this
  have hM := major_toInt d.version
  have hm := minor_toInt d.version
  have r1 := @BitVec.toInt_lt 32 d.version
  have r2 := @BitVec.le_toInt 32 d.version
  unfold majorI wrap16 at hM
  rw [wrap32_toInt] at hM
  unfold minorI wrap16 at hm
  have hdiv : (d.version.toInt / 65536).bmod 65536 = d.version.toInt / 65536 := by
    rw [Int.bmod_def]
    omega
  rw [hdiv] at hM
  apply BitVec.eq_of_toInt_eq
  rw [show (packVersion 0 0).toInt = 0 by decide]
  unfold versionCompatible at h1
  split at h1
  · next h =>
    rw [h.1, show (0 : BitVec 16).toInt = 0 by decide] at hM
    rw [h.2, show (0 : BitVec 16).toInt = 0 by decide, Int.bmod_def] at hm
    omega
  · have h1 := of_decide_eq_true h1
    rw [h1, show (versionMajor currentVersion).toInt = 1 by decide] at hM
    omega

/-- `setup`, run until its end. -/
theorem run_setup (E : SuEnv) (ok : Int → Su) (inc : Su) (er : Int → DbErr → Su) (s : SuSt) (hw : s.work = none) :
    ∃ n cs, (cs = [] ∧ (setup (E.seen s.i) (E.faults s.i) (E.between s.i s.db)).1 = E.between s.i s.db ∨
        (E.between s.i s.db).version = 0 ∧ (setup (E.seen s.i) (E.faults s.i) (E.between s.i s.db)).1 = migrated (E.between s.i s.db) ∧ cs = [migrated (E.between s.i s.db)]) ∧
      ∃ v, runSu E (setupT ok inc er) s = runSu E (match (setup (E.seen s.i) (E.faults s.i) (E.between s.i s.db)).2 with
          | .ok v => ok v.toInt
          | .error .incompatible => inc
          | .error (.db e) => er v e)
        { s with db := (setup (E.seen s.i) (E.faults s.i) (E.between s.i s.db)).1, n := n, tries := s.tries + 1, commits := s.commits ++ cs } := by
  generalize hd : E.between s.i s.db = d
  unfold setupT setup
  rw [runSu]
  dsimp only
  rw [hd]
  have fin : ∀ k : Su, ∀ n, runSu E (.close k) { s with db := d, tries := s.tries + 1, conns := s.conns + 1, n := n } = runSu E k { s with db := d, tries := s.tries + 1, n := n, commits := s.commits ++ [] } := by
    intro k n
    rw [runSu, List.append_nil]
    rfl
  have fin2 : ∀ k : Su, ∀ n w, runSu E (endT k) { s with db := d, tries := s.tries + 1, work := w, conns := s.conns + 1, n := n } = runSu E k { s with db := d, tries := s.tries + 1, n := n, commits := s.commits ++ [] } := by
    intro k n w
    rw [run_end]
    rw [← fin, ← hw]
  cases hc : (E.faults s.i).conn with
  | some e => exact ⟨s.n, [], Or.inl ⟨rfl, rfl⟩, 0, by rw [List.append_nil]⟩
  | none =>
  dsimp only
  rw [runSu]
  dsimp only
  cases hr : (E.faults s.i).read with
  | some e => exact ⟨s.n, [], Or.inl ⟨rfl, rfl⟩, 0, fin _ _⟩
  | none =>
  dsimp only
  rw [comp_toInt, current_le]
  cases h1 : versionCompatible (E.seen s.i) currentVersion with
  | false => exact ⟨s.n, [], Or.inl ⟨rfl, rfl⟩, 0, fin _ _⟩
  | true =>
  cases h2 : currentVersion.sle (E.seen s.i) with
  | true => exact ⟨s.n, [], Or.inl ⟨rfl, rfl⟩, 0, fin _ _⟩
  | false =>
  dsimp only [cond_true, cond_false]
  rw [runSu]
  dsimp only
  cases hb : (E.faults s.i).begin with
  | some e => exact ⟨s.n, [], Or.inl ⟨rfl, rfl⟩, 0, fin _ _⟩
  | none =>
  dsimp only
  rw [runSu]
  dsimp only
  cases hr2 : (E.faults s.i).read2 with
  | some e => exact ⟨0, [], Or.inl ⟨rfl, rfl⟩, 0, fin2 _ _ _⟩
  | none =>
  dsimp only
  rw [comp_toInt, current_le, zero_pack]
  cases h3 : versionCompatible d.version currentVersion with
  | false => exact ⟨0, [], Or.inl ⟨rfl, rfl⟩, 0, fin2 _ _ _⟩
  | true =>
  cases h4 : currentVersion.sle d.version with
  | true => exact ⟨0, [], Or.inl ⟨rfl, rfl⟩, 0, fin2 _ _ _⟩
  | false =>
  have h5 := migrateless h3 h4
  dsimp only [cond_true, cond_false, Bool.not_true]
  rw [decide_eq_true h5, if_pos h5, cond_true]
  simp only [Bool.not_true, Bool.false_eq_true, if_false]
  rcases run_migrate E ok er d.version.toInt { s with db := d, tries := s.tries + 1, conns := s.conns + 1, work := some d, n := 0 } d rfl rfl with ⟨w', n, h6, h7⟩ | ⟨e, n, h6, h7⟩
  · rw [h7, h6]
    have hm := migration_ok h6
    unfold commitT
    rw [runSu]
    dsimp only
    cases hcm : (E.faults s.i).commit with
    | ok =>
      refine ⟨n, [w'], Or.inr ⟨h5, hm, by rw [hm]⟩, 0, ?_⟩
      dsimp only
      rw [run_end, runSu]
      dsimp only
      rw [← hw]
      rfl
    | fail e =>
      refine ⟨n, [], Or.inl ⟨rfl, rfl⟩, d.version.toInt, ?_⟩
      dsimp only
      rw [run_end, runSu, List.append_nil]
      dsimp only
      rw [← hw]
      rfl
    | lost e =>
      refine ⟨n, [w'], Or.inr ⟨h5, hm, by rw [hm]⟩, d.version.toInt, ?_⟩
      dsimp only
      rw [run_end, runSu]
      dsimp only
      rw [← hw]
      rfl
  · rw [h7, h6]
    refine ⟨n, [], Or.inl ⟨rfl, rfl⟩, d.version.toInt, ?_⟩
    rw [runSu, List.append_nil]
    dsimp only
    rw [← hw]
    rfl

/-- The answer of `NewDriver`. -/
def driverAns (cfg : V) : Except SetupErr (BitVec 32) → List V
  | .ok v => [driverV cfg v.toInt, .nil]
  | .error .incompatible => [.nil, schV .incompatible]
  | .error (.db e) => [.nil, schErrV e]

/-- Either nothing has been written, or a database without a version has been migrated, once. -/
def Once (d d' : SchemaDB) (cs : List SchemaDB) : Prop :=
  cs = [] ∧ d' = d ∨ d.version = 0 ∧ cs = [migrated d] ∧ d' = migrated d

theorem Once.trans {d d' d'' : SchemaDB} {cs cs' : List SchemaDB} (h : Once d d' cs) (h' : Once d' d'' cs') : Once d d'' (cs ++ cs') := by
  rcases h with ⟨rfl, rfl⟩ | ⟨h1, rfl, rfl⟩
  · exact h'
  · rcases h' with ⟨rfl, rfl⟩ | ⟨h2, _, _⟩
    · exact Or.inr ⟨h1, rfl, rfl⟩
    · exact absurd (show (65536 : BitVec 32) = 0 from h2) (by decide)

/-- The attempts of `NewDriver`, run until their end. -/
theorem run_attempts (E : SuEnv) (cfg : V) : ∀ (j : Nat) (v : Int) (eo : Option DbErr) (s : SuSt), s.work = none → s.tries = s.i → 0 < j →
    ∃ s', runSu E (attemptsT .ret cfg j v eo) s =
        some (s', driverAns cfg (newDriver E.seen E.faults E.between E.ctxDone j s.i s.db).2.1) ∧
      s'.db = (newDriver E.seen E.faults E.between E.ctxDone j s.i s.db).1 ∧ s'.work = none ∧ s'.conns = s.conns ∧
      s'.tries = (newDriver E.seen E.faults E.between E.ctxDone j s.i s.db).2.2 ∧
      ∃ cs : List SchemaDB, s'.commits = s.commits ++ cs ∧ (∀ c ∈ cs, ∃ d : SchemaDB, d.version = 0 ∧ c = migrated d) ∧
        ((∀ i x, E.between i x = x) → Once s.db s'.db cs) := by
  intro j
  induction j with
  | zero => intro _ _ _ _ _ h; omega
  | succ j ih =>
    intro v eo s hw ht _
    unfold attemptsT newDriver
    obtain ⟨n, cs, hcs, w, h⟩ := run_setup E (fun v => finT .ret cfg v none) (.ret [.nil, schV .incompatible])
      (fun v e => .wait (.ret [.nil, schErrV .canceled]) (attemptsT .ret cfg j v (some e))) s hw
    rw [h]
    have hcc : ∀ c ∈ cs, ∃ d : SchemaDB, d.version = 0 ∧ c = migrated d := by
      rcases hcs with ⟨h, _⟩ | ⟨hd, _, h⟩
      · intro c hc
        rw [h] at hc
        cases hc
      · intro c hc
        rw [h] at hc
        exact ⟨_, hd, List.mem_singleton.mp hc⟩
    have hal : (∀ i x, E.between i x = x) → Once s.db (setup (E.seen s.i) (E.faults s.i) (E.between s.i s.db)).1 cs := by
      intro hb
      rw [hb] at hcs ⊢
      rcases hcs with ⟨h, h'⟩ | ⟨hd, h', h⟩
      · exact Or.inl ⟨h, h'⟩
      · exact Or.inr ⟨hd, h, h'⟩
    clear hcs
    generalize setup (E.seen s.i) (E.faults s.i) (E.between s.i s.db) = o at *
    obtain ⟨d', r⟩ := o
    cases r with
    | ok v => exact ⟨_, rfl, rfl, hw, rfl, congrArg (· + 1) ht, cs, rfl, hcc, hal⟩
    | error e =>
      cases e with
      | incompatible => exact ⟨_, rfl, rfl, hw, rfl, congrArg (· + 1) ht, cs, rfl, hcc, hal⟩
      | db e =>
        dsimp only
        rw [runSu]
        dsimp only
        cases hc : E.ctxDone s.i with
        | true =>
          simp only [if_true]
          exact ⟨_, rfl, rfl, hw, rfl, congrArg (· + 1) ht, cs, rfl, hcc, hal⟩
        | false =>
          simp only [Bool.false_eq_true, if_false]
          cases j with
          | zero => exact ⟨_, rfl, rfl, hw, rfl, congrArg (· + 1) ht, cs, rfl, hcc, hal⟩
          | succ j =>
            rw [if_neg (by omega)]
            obtain ⟨s', h1, h2, h3, h4, h5, cs', h6, h7, h8⟩ := ih w (some e) { s with db := d', n := n, commits := s.commits ++ cs, i := s.i + 1, tries := s.tries + 1 } hw (congrArg (· + 1) ht) (by omega)
            refine ⟨s', h1, h2, h3, h4, h5, cs ++ cs', by rw [h6, List.append_assoc], ?_, fun hb => (hal hb).trans (h8 hb)⟩
            intro c hc
            rcases List.mem_append.mp hc with h | h
            · exact hcc c h
            · exact h7 c h

theorem setupGo_eq : setupGo = setupT (fun v => .ret [.int v, .nil]) (.ret [.int 0, schV .incompatible]) fun v e => .ret [.int v, schErrV e] :=
  Eq.trans (b := schemaCalls (Control.std .stuck) 301 4 0 n!"setup" [schV .ctx, schV .database] .ret) (by kernel_rfl) (setup_run _ _ _)

theorem newDriverGo_eq (b : Bool) : newDriverGo (schV (.config true b)) = attemptsT .ret (schV (.config true b)) 300 0 none := by
  unfold newDriverGo
  rw [newDriver_run 301 .ret (schemaCalls (Control.std .stuck) 301 4) (fun K => setup_run _ _ K) b]
  exact attempts_eq .ret _ 300 301 0 0 none (by decide) (by decide)

end Verif.Go
