import Verif.Lemmas.ServerRun

/-!
# The server: C47, C48, C49, C56, C57, C68, C69
-/

namespace Verif

/-! ## C47: snapshot tuning -/

/-- **C47** (trailing). Whatever the tuning file says, the trailing handed to dqlite is at least 512. -/
theorem C47_trailing_min (c : Option SnapshotCfg) : 512 ≤ (adjustSnapshot c).trailing.toNat := by
  cases c with
  | none => decide
  | some v =>
    show 512 ≤ UInt64.toNat (if v.trailing < 512 then 512 else v.trailing)
    by_cases h : v.trailing < 512
    · rw [if_pos h]; decide
    · rw [if_neg h]
      have := mt UInt64.lt_iff_toNat_lt.2 h
      simpa using this

theorem adjust_threshold (v : SnapshotCfg) :
    (adjustSnapshot (some v)).threshold.toNat =
      if v.trailing.toNat < v.threshold.toNat then v.trailing.toNat
      else if v.threshold.toNat = 0 then v.trailing.toNat * 3 % 2 ^ 64 / 4
      else if v.threshold.toNat < 384 then 384 else v.threshold.toNat := by
  show UInt64.toNat (if v.threshold > v.trailing then v.trailing else
    if v.threshold = 0 then v.trailing * 3 / 4 else if v.threshold < 384 then 384 else v.threshold) = _
  have h0 : v.threshold = 0 ↔ v.threshold.toNat = 0 := by
    rw [← UInt64.toNat_inj]; rfl
  have h1 : v.threshold < 384 ↔ v.threshold.toNat < 384 := UInt64.lt_iff_toNat_lt
  have h2 : v.threshold > v.trailing ↔ v.trailing.toNat < v.threshold.toNat := UInt64.lt_iff_toNat_lt
  simp only [h0, h1, h2]
  by_cases a : v.trailing.toNat < v.threshold.toNat
  · simp [a]
  · by_cases b : v.threshold.toNat = 0
    · simp [b, UInt64.toNat_mul]
    · by_cases c : v.threshold.toNat < 384
      · simp [a, b, c]
      · simp [a, b, c]

theorem adjust_trailing (v : SnapshotCfg) :
    (adjustSnapshot (some v)).trailing.toNat = if v.trailing.toNat < 512 then 512 else v.trailing.toNat := by
  show UInt64.toNat (if v.trailing < 512 then 512 else v.trailing) = _
  have h1 : v.trailing < 512 ↔ v.trailing.toNat < 512 := UInt64.lt_iff_toNat_lt
  simp only [h1]
  by_cases c : v.trailing.toNat < 512 <;> simp [c]

/-- **C47** (order). Whatever the tuning file says, the threshold handed to dqlite does not exceed the trailing, even
when the multiplication wraps. -/
theorem C47_threshold_le_trailing (c : Option SnapshotCfg) :
    (adjustSnapshot c).threshold.toNat ≤ (adjustSnapshot c).trailing.toNat := by
  cases c with
  | none => decide
  | some v =>
    rw [adjust_threshold, adjust_trailing]
    have hm := Nat.mod_le (v.trailing.toNat * 3) (2 ^ 64)
    generalize v.trailing.toNat * 3 % 2 ^ 64 = m at hm ⊢
    split <;> split <;> (try split) <;> (try split) <;> omega

/-- **C47** (a sane file is respected): values within the bounds are used as they are. -/
theorem C47_valid_kept (v : SnapshotCfg) (h1 : 384 ≤ v.threshold.toNat) (h2 : v.threshold.toNat ≤ v.trailing.toNat)
    (h3 : 512 ≤ v.trailing.toNat) :
    (adjustSnapshot (some v)).threshold = v.threshold ∧ (adjustSnapshot (some v)).trailing = v.trailing := by
  constructor
  · rw [← UInt64.toNat_inj, adjust_threshold]
    split <;> (try split) <;> (try split) <;> omega
  · rw [← UInt64.toNat_inj, adjust_trailing]
    split <;> omega

/-- **C47** (threshold; the lower bound of the English property does not hold, see below). The lower bound holds exactly
unless the configured threshold is zero and three quarters of the configured trailing (after wrap-around) is below it, or
the configured threshold exceeds a configured trailing which is below it. -/
theorem C47_threshold_min_partial (v : SnapshotCfg) :
    384 ≤ (adjustSnapshot (some v)).threshold.toNat ↔
      ¬ ((v.threshold.toNat = 0 ∧ v.trailing.toNat * 3 % 2 ^ 64 / 4 < 384)
        ∨ (v.trailing.toNat < v.threshold.toNat ∧ v.trailing.toNat < 384)) := by
  rw [adjust_threshold]
  have := v.trailing.toNat_lt
  split <;> (try split) <;> (try split) <;> omega

/-- In particular the bound holds for every file with a trailing between 512 and a third of the range of `uint64`. -/
theorem C47_threshold_min_moderate_partial (v : SnapshotCfg) (h : 512 ≤ v.trailing.toNat)
    (h' : v.trailing.toNat * 3 < 2 ^ 64) : 384 ≤ (adjustSnapshot (some v)).threshold.toNat := by
  rw [adjust_threshold, Nat.mod_eq_of_lt h']
  split <;> (try split) <;> (try split) <;> omega

/-- **C47** (counterexamples): a low trailing wins over the minimum of the threshold; a threshold of zero is replaced by
three quarters of the *unadjusted* trailing; and the multiplication can wrap to a threshold of zero. -/
theorem C47_threshold_min_counterexample :
    (adjustSnapshot (some ⟨400, 10, []⟩)).threshold = 10 ∧
    (adjustSnapshot (some ⟨0, 100, []⟩)).threshold = 75 ∧
    (adjustSnapshot (some ⟨1, 0, []⟩)).threshold = 0 ∧
    (adjustSnapshot (some ⟨0, 6148914691236517206, []⟩)).threshold = 0 := by decide

/-- **C47** (strategy): the static strategy is chosen exactly by a spelling of "static"; everything else, including an
unknown word and no word, means dynamic. -/
theorem C47_strategy (v : SnapshotCfg) :
    ((adjustSnapshot (some v)).strategy = .static ↔ v.strategy.map foldChar = "static".toList) ∧
    ((adjustSnapshot (some v)).strategy = .dynamic ↔ v.strategy.map foldChar ≠ "static".toList) := by
  have : (adjustSnapshot (some v)).strategy = if isStatic v.strategy then .static else .dynamic := rfl
  rw [this]
  have e : "static".toList = ['s', 't', 'a', 't', 'i', 'c'] := by decide
  rw [e]
  by_cases h : v.strategy.map foldChar = ['s', 't', 'a', 't', 'i', 'c'] <;> simp [isStatic, h]

example : (adjustSnapshot (some ⟨1024, 8192, "STATIC".toList⟩)) = ⟨1024, 8192, .static⟩ := by decide
example : (adjustSnapshot (some ⟨1024, 8192, "statik".toList⟩)) = ⟨1024, 8192, .dynamic⟩ := by decide

/-! ## C56: the connection pool -/

/-- **C56** (negative values): no idle connection is kept, whatever the open limit. -/
theorem C56_negative (c : PoolConfig) (h : c.maxIdle < 0) : (c.apply .fresh).keepsIdle = 0 := by
  obtain ⟨i, o⟩ := c
  simp only at h
  have : ¬ i > 0 := by omega
  by_cases ho : o < 0
  · simp [PoolConfig.apply, SqlPool.setMaxIdle, SqlPool.setMaxOpen, SqlPool.fresh, SqlPool.keepsIdle, this, ho]
  · simp [PoolConfig.apply, SqlPool.setMaxIdle, SqlPool.setMaxOpen, SqlPool.fresh, SqlPool.keepsIdle, this, ho]

/-- **C56** (positive values): the limit given is used, except that the pool never keeps more idle connections than it
may open. -/
theorem C56_positive (c : PoolConfig) (h : 0 < c.maxIdle) :
    (c.apply .fresh).keepsIdle = if 0 < c.maxOpen then min c.maxIdle c.maxOpen else c.maxIdle := by
  obtain ⟨i, o⟩ := c
  simp only at h
  have e : SqlPool.fresh.setMaxIdle i = ⟨i, 0⟩ := by
    simp [SqlPool.setMaxIdle, SqlPool.fresh, h]
  have ki : ∀ o', (SqlPool.mk i o').keepsIdle = i := by
    intro o'
    simp only [SqlPool.keepsIdle]
    rw [if_neg (by omega), if_neg (by omega)]
  show ((SqlPool.fresh.setMaxIdle i).setMaxOpen o).keepsIdle = if 0 < o then min i o else i
  rw [e]
  unfold SqlPool.setMaxOpen
  simp only [ki]
  by_cases ho : 0 < o
  · rw [if_pos ho]
    have hneg : ¬ o < 0 := by omega
    simp only [if_neg hneg]
    by_cases hio : i > o
    · rw [if_pos ⟨ho, hio⟩]
      have e2 : (SqlPool.mk i o).setMaxIdle o = ⟨o, o⟩ := by
        simp [SqlPool.setMaxIdle, SqlPool.keepsIdle, ho]
      rw [e2]
      simp only [SqlPool.keepsIdle]
      rw [if_neg (by omega), if_neg (by omega)]
      omega
    · rw [if_neg (fun c => hio c.2), ki]
      omega
  · rw [if_neg ho]
    have : ¬ ((if o < 0 then 0 else o) > 0) := by split <;> omega
    rw [if_neg (fun c => this c.1), ki]

/-- **C56** (zero; the English property does not hold): the help text promises the system default of two idle
connections, but zero is handed to `SetMaxIdleConns`, which keeps none, exactly as for a negative value. -/
theorem C56_zero_counterexample (o : Int) (ho : 0 ≤ o) :
    ((⟨0, o⟩ : PoolConfig).apply .fresh).keepsIdle = 0 ∧ SqlPool.fresh.keepsIdle = 2 := by
  refine ⟨?_, rfl⟩
  have hneg : ¬ o < 0 := by omega
  simp [PoolConfig.apply, SqlPool.setMaxIdle, SqlPool.setMaxOpen, SqlPool.fresh, SqlPool.keepsIdle, hneg]

example : ((⟨5, 5⟩ : PoolConfig).apply .fresh).keepsIdle = 5 := by decide

/-! ## C48: initialisation never runs over existing state -/

/-- A printer and parser good enough for examples: `[1]` is an `init.yaml`, `[2]` an `update.yaml`, `[3]` a `tuning.yaml`
with a poll interval of zero. -/
def demoYaml : Yaml where
  init := fun t => if t = [1] then some ⟨"10.0.0.1:9000", ["10.0.0.9:9000"]⟩ else none
  update := fun t => if t = [2] then some "10.0.0.2:9000" else none
  info := fun
    | [] => some ⟨0, "", 0⟩
    | [_] => none
    | i :: r :: t => some ⟨i, String.ofList (t.map Char.ofNat), r⟩
  domain := fun _ => none
  tuning := fun t => if t = [3] then some ⟨none, none, none, some 0⟩ else none
  printInfo := fun i => i.id :: i.role :: i.address.toList.map Char.toNat
  printCluster := fun ns => ns.flatMap fun i => i.id :: i.role :: i.address.toList.map Char.toNat
  info_print := by
    intro ⟨i, a, r⟩
    have : (fun x => Char.ofNat x) ∘ Char.toNat = id := by
      funext c
      exact Char.ofNat_toNat c
    show some (NodeInfo.mk i (String.ofList ((a.toList.map Char.toNat).map Char.ofNat)) r) = _
    rw [List.map_map]
    have e : Char.ofNat ∘ Char.toNat = id := this
    rw [e, List.map_id, String.ofList_toList]
  info_empty := rfl

/-- A directory with the given files and an empty raft log. -/
def dirOf (fs : List (String × Text)) : Disk := ⟨fun n => fs.lookup n, []⟩

/-- Arguments with nothing special. -/
def demoArgs : NewArgs := ⟨false, false, 0, "tls12", "none", 20000000000, 5000000000⟩

/-- **C48**. With `init.yaml` present and any other file than the expected ones in the directory, no run of `New` changes
the directory or starts dqlite: it reports an error (or dies). -/
theorem C48_refuses {torn : Bool} (y : Yaml) (a : NewArgs) (d d' : Disk) (l o)
    (hinit : (d.files "init.yaml").isSome)
    (hother : ∃ n, (d.files n).isSome ∧ n ∉ ["cluster.crt", "cluster.key", "init.yaml", "failure-domain", "tuning.yaml"])
    (h : FRun torn (newServer y a) d l o d') :
    l = [] ∧ d' = d ∧ (o = .crashed ∨ ∃ e, o = .returned (.error e)) := by
  by_cases hact : actionOk a.action = true
  · rw [newServer_eq hact] at h
    have key : ∀ {l o d'}, FRun torn (handleFiles y) d l o d' →
        l = [] ∧ d' = d ∧ (o = .crashed ∨ ∃ e, o = .returned (.error e)) := by
      intro l o d' h
      unfold handleFiles at h
      cases h with
      | crash => exact ⟨rfl, rfl, .inl rfl⟩
      | existsErr h =>
        obtain ⟨e1, e2, e3⟩ := frun_ret h
        refine ⟨e1, e2, ?_⟩
        rcases e3 with e | e
        · exact .inl e
        · exact .inr ⟨_, e⟩
      | exists? h =>
        rw [hinit] at h
        obtain ⟨e1, e2⟩ := handleInit_run h
        rcases e2 with ⟨e2, e3⟩ | ⟨_, hall, _⟩
        · exact ⟨e1, e2, e3⟩
        · obtain ⟨n, hs, hn⟩ := hother
          exact (hn (hall n hs)).elim
    rcases frun_andThen h with ⟨ho, h⟩ | ⟨e, ho, h⟩ | ⟨c, l₁, l₂, d₁, h₁, h, e⟩
    · exact ⟨(key h).1, (key h).2.1, .inl ho⟩
    · refine ⟨(key h).1, (key h).2.1, ?_⟩
      rcases ho with ho | ho
      · exact .inl ho
      · exact .inr ⟨e, ho⟩
    · rcases (key h₁).2.2 with hc | ⟨e, hc⟩ <;> cases hc
  · have hb : actionOk a.action = false := by simpa using hact
    unfold newServer at h
    rw [hb] at h
    obtain ⟨e1, e2, e3⟩ := frun_ret h
    refine ⟨e1, e2, ?_⟩
    rcases e3 with e | e
    · exact .inl e
    · exact .inr ⟨_, e⟩

/-- **C48** (the other direction). If dqlite is started on a directory with `init.yaml`, there were only expected files in
the directory, and the address and the cluster are the ones of `init.yaml`. -/
theorem C48_starts_only_if_clean {torn : Bool} (y : Yaml) (a : NewArgs) (d d' : Disk) (l o)
    (hinit : (d.files "init.yaml").isSome) (h : FRun torn (newServer y a) d l o d') (hl : l ≠ []) :
    (∀ n, (d.files n).isSome → n ∈ ["cluster.crt", "cluster.key", "init.yaml", "failure-domain", "tuning.yaml"]) ∧
    ∃ opts c, l = [(opts, d.set "init.yaml" none)] ∧ (d.files "init.yaml").bind y.init = some c ∧ c.address ≠ "" ∧
      opts.init = some c := by
  by_cases hact : actionOk a.action = true
  · rw [newServer_eq hact] at h
    have key : ∀ {l o d'}, FRun torn (handleFiles y) d l o d' → l = [] ∧ (∀ r, o = .returned (.ok r) →
        d' = d.set "init.yaml" none ∧ (∀ n, (d.files n).isSome → n ∈ expectedFiles) ∧
        ∃ c, (d.files "init.yaml").bind y.init = some c ∧ c.address ≠ "" ∧ r = some c) := by
      intro l o d' h
      unfold handleFiles at h
      cases h with
      | crash => exact ⟨rfl, nofun⟩
      | existsErr h =>
        obtain ⟨e1, e2, e3⟩ := frun_ret h
        refine ⟨e1, fun r hr => ?_⟩
        rcases e3 with e | e <;> (rw [e] at hr; cases hr)
      | exists? h =>
        rw [hinit] at h
        obtain ⟨e1, e2⟩ := handleInit_run h
        refine ⟨e1, fun r hr => ?_⟩
        rcases e2 with ⟨_, e3 | ⟨e, e3⟩⟩ | ⟨e2, hall, c, hc, hne, e3⟩
        · rw [e3] at hr; cases hr
        · rw [e3] at hr; cases hr
        · rcases e3 with e3 | e3
          · rw [e3] at hr; cases hr
          · rw [e3] at hr; cases hr; exact ⟨e2, hall, c, hc, hne, rfl⟩
    rcases frun_andThen h with ⟨ho, h⟩ | ⟨e, ho, h⟩ | ⟨c, l₁, l₂, d₁, h₁, h, e⟩
    · exact (hl (key h).1).elim
    · exact (hl (key h).1).elim
    · obtain ⟨e1, k2⟩ := key h₁
      obtain ⟨e2, hall, c', hc, hne, hcc⟩ := k2 c rfl
      subst e1 e2 hcc
      refine ⟨hall, ?_⟩
      rcases afterFiles_run h with ⟨e', _⟩ | ⟨opts, e', ho, _⟩
      · subst e'; exact (hl e).elim
      · subst e'; exact ⟨opts, c', e, hc, hne, ho⟩
  · have hb : actionOk a.action = false := by simpa using hact
    unfold newServer at h
    rw [hb] at h
    exact (hl (frun_ret h).1).elim

/-- The hypotheses are met: a directory with `init.yaml` alone starts dqlite with the configuration of the file; with a
leftover database file it does not. -/
example : ∃ opts d', FRun false (newServer demoYaml demoArgs) (dirOf [("init.yaml", [1])])
      [(opts, (dirOf [("init.yaml", [1])]).set "init.yaml" none)]
      (.returned (.ok ⟨300000000000, 1000000000, 20000000000, 5000000000⟩)) d' ∧
    opts.init = some ⟨"10.0.0.1:9000", ["10.0.0.9:9000"]⟩ := by
  refine ⟨⟨some ⟨"10.0.0.1:9000", ["10.0.0.9:9000"]⟩, 0, none, .default, none, false⟩, dirOf [], ?_, rfl⟩
  refine .exists? (.readDir ["init.yaml"] ?_ (.read (.remove rfl (.exists? (.exists? (.appNew true _ (.ret _ _)))))))
  intro n
  by_cases h : n = "init.yaml"
  · subst h; decide
  · have : (dirOf [("init.yaml", [1])]).files n = none := by
      show List.lookup n [("init.yaml", [1])] = none
      have hb : (n == "init.yaml") = false := by simpa using h
      simp [List.lookup, hb]
    simp [this, h]

example : ∃ n, ((dirOf [("init.yaml", [1]), ("open-1", [7])]).files n).isSome ∧
    n ∉ ["cluster.crt", "cluster.key", "init.yaml", "failure-domain", "tuning.yaml"] := ⟨"open-1", by decide⟩

/-! ## C49: configuration steps and crashes -/

/-- Starts of the server that do not get as far as starting dqlite: each dies or reports an error first. The arguments may
differ from start to start. -/
inductive StartAttempts (torn : Bool) (y : Yaml) : Disk → Disk → Prop
  | refl (d) : StartAttempts torn y d d
  | step {d d₁ d₂} {a : NewArgs} {o} (h : StartAttempts torn y d d₁) (r : FRun torn (newServer y a) d₁ [] o d₂) :
      StartAttempts torn y d d₂

/-- **C49** (`init.yaml`; the English property does not hold). `init.yaml` is removed before dqlite is started: if the
server dies in between, no later start passes its configuration on: every later start of dqlite has no address and no
cluster. -/
theorem C49_init_counterexample :
    ∃ d d₁ : Disk, (d.files "init.yaml").bind demoYaml.init = some ⟨"10.0.0.1:9000", ["10.0.0.9:9000"]⟩ ∧
      FRun false (newServer demoYaml demoArgs) d [] .crashed d₁ ∧
      ∀ (torn : Bool) (a : NewArgs) l o d', FRun torn (newServer demoYaml a) d₁ l o d' → ∀ c ∈ l, c.1.init = none := by
  refine ⟨dirOf [("init.yaml", [1])], (dirOf [("init.yaml", [1])]).set "init.yaml" none, by decide, ?_, ?_⟩
  · refine .exists? (.readDir ["init.yaml"] ?_ (.read (.remove rfl (.crash _ _))))
    intro n
    by_cases h : n = "init.yaml"
    · subst h; decide
    · have : (dirOf [("init.yaml", [1])]).files n = none := by
        show List.lookup n [("init.yaml", [1])] = none
        have hb : (n == "init.yaml") = false := by simpa using h
        simp [List.lookup, hb]
      simp [this, h]
  · intro torn a l o d' h
    by_cases hact : actionOk a.action = true
    · rw [newServer_eq hact] at h
      have key : ∀ {l o d'}, FRun torn (handleFiles demoYaml) ((dirOf [("init.yaml", [1])]).set "init.yaml" none) l o d' →
          l = [] ∧ ∀ r, o = .returned (.ok r) → r = none := by
        intro l o d' h
        unfold handleFiles at h
        cases h with
        | crash => exact ⟨rfl, nofun⟩
        | existsErr h =>
          obtain ⟨e1, e2, e3⟩ := frun_ret h
          refine ⟨e1, fun r hr => ?_⟩
          rcases e3 with e | e <;> (rw [e] at hr; cases hr)
        | exists? h =>
          have e : (((dirOf [("init.yaml", [1])]).set "init.yaml" none).files "init.yaml").isSome = false := rfl
          rw [e] at h
          cases h with
          | crash => exact ⟨rfl, nofun⟩
          | existsErr h =>
            obtain ⟨e1, e2, e3⟩ := frun_ret h
            refine ⟨e1, fun r hr => ?_⟩
            rcases e3 with e | e <;> (rw [e] at hr; cases hr)
          | exists? h =>
            have e : (((dirOf [("init.yaml", [1])]).set "init.yaml" none).files "update.yaml").isSome = false := by decide
            rw [e] at h
            obtain ⟨e1, e2, e3⟩ := frun_ret h
            refine ⟨e1, fun r hr => ?_⟩
            rcases e3 with e | e
            · rw [e] at hr; cases hr
            · rw [e] at hr; cases hr; rfl
      rcases frun_andThen h with ⟨ho, h⟩ | ⟨e, ho, h⟩ | ⟨c, l₁, l₂, d₁, h₁, h, e⟩
      · rw [(key h).1]; nofun
      · rw [(key h).1]; nofun
      · have hl1 := (key h₁).1
        have hr := (key h₁).2 c rfl
        subst hl1 hr
        rcases afterFiles_run h with ⟨e', _⟩ | ⟨opts, e', ho, _⟩
        · subst e' e; nofun
        · subst e' e
          intro c hc
          rw [List.nil_append, List.mem_singleton] at hc
          rw [hc]; exact ho
    · have hb : actionOk a.action = false := by simpa using hact
      unfold newServer at h
      rw [hb] at h
      rw [(frun_ret h).1]; nofun

/-- The same without any crash: an unsupported TLS version is only noticed after `init.yaml` is gone. -/
theorem C49_init_error_counterexample :
    FRun false (newServer demoYaml { demoArgs with tls := true, minTls := "tls9" }) (dirOf [("init.yaml", [1])]) []
      (.returned (.error .badTlsVersion)) ((dirOf [("init.yaml", [1])]).set "init.yaml" none) := by
  refine .exists? (.readDir ["init.yaml"] ?_ (.read (.remove rfl (.exists? (.loadCerts true (.ret _ _))))))
  intro n
  by_cases h : n = "init.yaml"
  · subst h; decide
  · have : (dirOf [("init.yaml", [1])]).files n = none := by
      show List.lookup n [("init.yaml", [1])] = none
      have hb : (n == "init.yaml") = false := by simpa using h
      simp [List.lookup, hb]
    simp [this, h]

/-- **C49** (`init.yaml`, what does hold): a start that does not get to dqlite leaves the directory either untouched — so
the next start begins again — or without `init.yaml` and otherwise untouched; `init.yaml` is never damaged. -/
theorem C49_init_partial {torn : Bool} (y : Yaml) (a : NewArgs) (d d' : Disk) (o) (hinit : (d.files "init.yaml").isSome)
    (h : FRun torn (newServer y a) d [] o d') : d' = d ∨ d' = d.set "init.yaml" none := by
  by_cases hact : actionOk a.action = true
  · rw [newServer_eq hact] at h
    have key : ∀ {l o d'}, FRun torn (handleFiles y) d l o d' → l = [] ∧ (d' = d ∨ d' = d.set "init.yaml" none) := by
      intro l o d' h
      unfold handleFiles at h
      cases h with
      | crash => exact ⟨rfl, .inl rfl⟩
      | existsErr h =>
        obtain ⟨e1, e2, e3⟩ := frun_ret h
        exact ⟨e1, .inl e2⟩
      | exists? h =>
        rw [hinit] at h
        obtain ⟨e1, e2⟩ := handleInit_run h
        rcases e2 with ⟨e2, _⟩ | ⟨e2, _⟩
        · exact ⟨e1, .inl e2⟩
        · exact ⟨e1, .inr e2⟩
    rcases frun_andThen h with ⟨ho, h⟩ | ⟨e, ho, h⟩ | ⟨c, l₁, l₂, d₁, h₁, h, e⟩
    · exact (key h).2
    · exact (key h).2
    · have k := key h₁
      rcases afterFiles_run h with ⟨e', e2, _⟩ | ⟨opts, e', ho, _⟩
      · rw [e2]; exact k.2
      · rw [e', k.1] at e; cases e
  · have hb : actionOk a.action = false := by simpa using hact
    unfold newServer at h
    rw [hb] at h
    exact .inl (frun_ret h).2.1

theorem update_stage_run {y : Yaml} {a : NewArgs} {d₀ d d' : Disk} {info : NodeInfo} {l o}
    (hu : (d₀.files "update.yaml").bind y.update = some info.address) (hst : UpdateStage y d₀ d info)
    (h : FRun false (newServer y a) d l o d') :
    (l = [] ∧ UpdateStage y d₀ d' info) ∨
    (∃ opts d₁, l = [(opts, d₁)] ∧ opts.init = none ∧ UpdateStage y d₀ d₁ info ∧ d₁.files "update.yaml" = none) := by
  by_cases hact : actionOk a.action = true
  · rw [newServer_eq hact] at h
    have key : ∀ {l o d'}, FRun false (handleFiles y) d l o d' → l = [] ∧ UpdateStage y d₀ d' info ∧
        (∀ r, o = .returned (.ok r) → r = none ∧ d'.files "update.yaml" = none) := by
      intro l o d' h
      unfold handleFiles at h
      cases h with
      | crash => exact ⟨rfl, hst, nofun⟩
      | existsErr h =>
        obtain ⟨e1, e2, e3⟩ := frun_ret h
        subst e2
        refine ⟨e1, hst, fun r hr => ?_⟩
        rcases e3 with e | e <;> (rw [e] at hr; cases hr)
      | exists? h =>
        rw [hst.1] at h
        cases h with
        | crash => exact ⟨rfl, hst, nofun⟩
        | existsErr h =>
          obtain ⟨e1, e2, e3⟩ := frun_ret h
          subst e2
          refine ⟨e1, hst, fun r hr => ?_⟩
          rcases e3 with e | e <;> (rw [e] at hr; cases hr)
        | exists? h =>
          cases hup : d.files "update.yaml" with
          | some t =>
            rw [hup] at h
            exact handleUpdate_run hu hst (by rw [hup]; rfl) h
          | none =>
            rw [hup] at h
            obtain ⟨e1, e2, e3⟩ := frun_ret h
            subst e2
            refine ⟨e1, hst, fun r hr => ?_⟩
            rcases e3 with e | e
            · rw [e] at hr; cases hr
            · rw [e] at hr; cases hr; exact ⟨rfl, hup⟩
    rcases frun_andThen h with ⟨ho, h⟩ | ⟨e, ho, h⟩ | ⟨c, l₁, l₂, d₁, h₁, h, e⟩
    · exact .inl ⟨(key h).1, (key h).2.1⟩
    · exact .inl ⟨(key h).1, (key h).2.1⟩
    · obtain ⟨k1, k2, k3⟩ := key h₁
      subst k1
      obtain ⟨k3, k4⟩ := k3 c rfl
      rcases afterFiles_run h with ⟨e', e2, _⟩ | ⟨opts, e', ho, _⟩
      · subst e' e2; exact .inl ⟨e, k2⟩
      · subst e'; exact .inr ⟨opts, d₁, e, ho.trans k3, k2, k4⟩
  · have hb : actionOk a.action = false := by simpa using hact
    unfold newServer at h
    rw [hb] at h
    obtain ⟨e1, e2, _⟩ := frun_ret h
    subst e2
    exact .inl ⟨e1, hst⟩

/-- **C49** (`update.yaml`, provided that a write is done completely or not at all). However many starts die or fail at
whatever operation, the first one that gets to dqlite does so with the address of `update.yaml` in the raft membership,
in `info.yaml` and in `cluster.yaml`, the node keeping its identity, and with `update.yaml` gone. -/
theorem C49_update_partial (y : Yaml) (d₀ d d' : Disk) (address : String) (old : NodeInfo) (a : NewArgs) (l o)
    (hinit : d₀.files "init.yaml" = none) (hu : (d₀.files "update.yaml").bind y.update = some address)
    (hi : (d₀.files "info.yaml").bind y.info = some old) (hr : StartAttempts false y d₀ d)
    (h : FRun false (newServer y a) d l o d') (hl : l ≠ []) :
    ∃ opts d₁, l = [(opts, d₁)] ∧ opts.init = none ∧ d₁.files "update.yaml" = none ∧
      d₁.members = [{ old with address := address }] ∧
      d₁.files "info.yaml" = some (y.printInfo { old with address := address }) ∧
      d₁.files "cluster.yaml" = some (y.printCluster [{ old with address := address }]) := by
  have hst : UpdateStage y d₀ d { old with address := address } := by
    clear h hl
    induction hr with
    | refl => exact ⟨hinit, .inl ⟨rfl, old, hi, rfl⟩⟩
    | step _ r ih =>
      rcases update_stage_run (info := { old with address := address }) hu ih r with ⟨_, hs⟩ | ⟨_, _, e, _⟩
      · exact hs
      · cases e
  rcases update_stage_run (info := { old with address := address }) hu hst h with ⟨e, _⟩ | ⟨opts, d₁, e, ho, hs, hn⟩
  · exact (hl e).elim
  · refine ⟨opts, d₁, e, ho, hn, ?_⟩
    rcases hs.2 with ⟨hup, _⟩ | ⟨_, h1, h2, h3⟩
    · rw [hn] at hup
      rw [← hup] at hu
      cases hu
    · exact ⟨h3, h1, h2⟩

/-- The hypotheses of `C49_update_partial` are met: a node with `info.yaml` and `update.yaml` dies after the change of the
membership, and the next start completes the update. -/
example : ∃ d d' l o, StartAttempts false demoYaml (dirOf [("info.yaml", [7, 1, 65]), ("update.yaml", [2])]) d ∧
    FRun false (newServer demoYaml demoArgs) d l o d' ∧ l ≠ [] := by
  have h1 : StartAttempts false demoYaml (dirOf [("info.yaml", [7, 1, 65]), ("update.yaml", [2])])
      { dirOf [("info.yaml", [7, 1, 65]), ("update.yaml", [2])] with members := [⟨7, "10.0.0.2:9000", 1⟩] } :=
    .step (.refl _) (a := demoArgs) (o := .crashed) (.exists? (.exists? (.read (.read (.reconfigure (.crash _ _))))))
  exact ⟨_, dirOf [], _, .returned (.ok ⟨300000000000, 1000000000, 20000000000, 5000000000⟩), h1,
    .exists? (.exists? (.read (.read (.reconfigure (.write (.write (.remove rfl (.exists? (.exists?
      (.appNew true _ (.ret _ _))))))))))), nofun⟩

/-- **C49** (`update.yaml`; the English property does not hold when a write is interrupted). `info.yaml` is overwritten in
place: if the server dies after the truncation, the file is empty, the empty file is read as an all-zero node, and the
next start succeeds with the identity of the node lost (7 before, 0 after). -/
theorem C49_update_torn_counterexample :
    ∃ d₀ d : Disk, (d₀.files "info.yaml").bind demoYaml.info = some ⟨7, "A", 1⟩ ∧
      (d₀.files "update.yaml").bind demoYaml.update = some "10.0.0.2:9000" ∧
      FRun true (newServer demoYaml demoArgs) d₀ [] .crashed d ∧
      ∃ opts d₁ d' r, FRun true (newServer demoYaml demoArgs) d [(opts, d₁)] (.returned (.ok r)) d' ∧
        d₁.members = [⟨0, "10.0.0.2:9000", 0⟩] ∧ (d₁.files "info.yaml").bind demoYaml.info = some ⟨0, "10.0.0.2:9000", 0⟩ := by
  refine ⟨dirOf [("info.yaml", [7, 1, 65]), ("update.yaml", [2])],
    Disk.set { dirOf [("info.yaml", [7, 1, 65]), ("update.yaml", [2])] with members := [⟨7, "10.0.0.2:9000", 1⟩] } "info.yaml" (some []),
    by decide, by decide, ?_, ?_⟩
  · exact .exists? (.exists? (.read (.read (.reconfigure (.writeTornCrash rfl ⟨_, by simp, rfl⟩)))))
  · refine ⟨_, _, dirOf [], _, .exists? (.exists? (.read (.read (.reconfigure (.write (.write (.remove rfl (.exists? (.exists?
      (.appNew true _ (.ret _ _))))))))))), rfl, demoYaml.info_print _⟩

/-! ## C69: accepted timer settings -/

/-- **C69** (what does hold). If `tuning.yaml` is absent or sets only positive intervals, and the progress interval is
positive, then every server that `New` returns has intervals that tickers accept. -/
theorem C69_intervals_partial {torn : Bool} (y : Yaml) (a : NewArgs) (d d' : Disk) (l i)
    (hn : 0 < a.notify)
    (ht : ∀ t, (d.files "tuning.yaml").bind y.tuning = some t →
      (∀ c, t.compactInterval = some c → 0 < c) ∧ (∀ p, t.pollInterval = some p → 0 < p))
    (h : FRun torn (newServer y a) d l (.returned (.ok i)) d') : i.tickersOk := by
  have hact : actionOk a.action = true := by
    cases hb : actionOk a.action with
    | true => rfl
    | false =>
      unfold newServer at h
      rw [hb] at h
      obtain ⟨_, _, e | e⟩ := frun_ret h <;> cases e
  rw [newServer_eq hact] at h
  have keep : ∀ {l o d'}, FRun torn (handleFiles y) d l o d' → d'.files "tuning.yaml" = d.files "tuning.yaml" := by
    intro l o d' h
    unfold handleFiles at h
    cases h with
    | crash => rfl
    | existsErr h => rw [(frun_ret h).2.1]
    | exists? h =>
      cases hb : (d.files "init.yaml").isSome with
      | true =>
        rw [hb] at h
        rcases (handleInit_run h).2 with ⟨e, _⟩ | ⟨e, _⟩
        · rw [e]
        · rw [e]; exact set_other _ _ (by decide)
      | false =>
        rw [hb] at h
        cases h with
        | crash => rfl
        | existsErr h => rw [(frun_ret h).2.1]
        | exists? h =>
          cases hb : (d.files "update.yaml").isSome with
          | false =>
            rw [hb] at h
            rw [(frun_ret h).2.1]
          | true =>
            rw [hb] at h
            exact handleUpdate_tuning h
  rcases frun_andThen h with ⟨ho, _⟩ | ⟨e, ho, _⟩ | ⟨c, l₁, l₂, d₁, h₁, k1, e⟩
  · cases ho
  · rcases ho with ho | ho <;> cases ho
  have hd := keep h₁
  rcases frun_andThen k1 with ⟨ho, _⟩ | ⟨e, ho, _⟩ | ⟨c, l₁, l₂, d₂, g₁, k2, e⟩
  · cases ho
  · rcases ho with ho | ho <;> cases ho
  have e2 := ((handleDomain_readOnly y).run g₁).2
  subst e2
  rcases frun_andThen k2 with ⟨ho, _⟩ | ⟨e, ho, _⟩ | ⟨c, l₁, l₂, d₂, g₂, k3, e⟩
  · cases ho
  · rcases ho with ho | ho <;> cases ho
  have e2 := ((handleTls_readOnly a).run g₂).2
  subst e2
  rcases frun_andThen k3 with ⟨ho, _⟩ | ⟨e, ho, _⟩ | ⟨tun, l₁, l₂, d₂, g₃, k4, e⟩
  · cases ho
  · rcases ho with ho | ho <;> cases ho
  have htun : tun = none ∨ (d.files "tuning.yaml").bind y.tuning = tun := by
    rw [← hd]
    unfold handleTuning at g₃
    cases g₃ with
    | existsErr h => rcases (frun_ret h).2.2 with e | e <;> cases e
    | exists? h =>
      simp only at h
      split at h
      · next e => cases e
      · rcases (frun_ret h).2.2 with e | e
        · cases e
        · cases e; exact .inl rfl
      · cases h with
        | readErr h => rcases (frun_ret h).2.2 with e | e <;> cases e
        | read h =>
          simp only at h
          split at h
          · rcases (frun_ret h).2.2 with e | e <;> cases e
          · next c hc =>
            rcases (frun_ret h).2.2 with e | e
            · cases e
            · cases e; exact .inr hc
  have hi : i = intervals a tun := by
    cases k4 with
    | appNew ok d₁ h =>
      cases ok
      · rcases (frun_ret h).2.2 with e | e <;> cases e
      · rcases (frun_ret h).2.2 with e | e
        · cases e
        · cases e; rfl
  subst hi
  cases tun with
  | none => exact ⟨(by decide : (0 : Int) < 300000000000), (by decide : (0 : Int) < 1000000000), hn⟩
  | some t =>
    rcases htun with e | e
    · cases e
    · obtain ⟨hc, hp⟩ := ht t e
      refine ⟨?_, ?_, hn⟩
      · show 0 < (t.compactInterval).getD 300000000000
        cases hcc : t.compactInterval with
        | none => decide
        | some c => exact hc c hcc
      · show 0 < (t.pollInterval).getD 1000000000
        cases hcc : t.pollInterval with
        | none => decide
        | some c => exact hp c hcc

/-- **C69** (the English property does not hold): a poll interval of zero in `tuning.yaml` (or a progress interval of zero
on the command line) is accepted, and the ticker made from it panics. -/
theorem C69_interval_counterexample :
    (∃ l d' i, FRun false (newServer demoYaml demoArgs) (dirOf [("tuning.yaml", [3])]) l (.returned (.ok i)) d' ∧ i.poll = 0
      ∧ ¬ i.tickersOk) ∧
    (∃ l d' i, FRun false (newServer demoYaml { demoArgs with notify := 0 }) (dirOf []) l (.returned (.ok i)) d' ∧ i.notify = 0
      ∧ ¬ i.tickersOk) := by
  constructor
  · refine ⟨_, dirOf [], _, .exists? (.exists? (.exists? (.exists? (.read (.appNew true _ (.ret _ _)))))), rfl, ?_⟩
    intro h; exact absurd h.2.1 (by decide)
  · refine ⟨_, dirOf [], _, .exists? (.exists? (.exists? (.exists? (.appNew true _ (.ret _ _))))), rfl, ?_⟩
    intro h; exact absurd h.2.2 (by decide)

/-! ## C57: low disk space -/

/-- The free space reported is below the limit, in plain arithmetic (an unreadable file system is not). -/
def FreeBelow (minBytes : UInt64) : StatFs → Prop
  | .err => False
  | .ok bavail bsize => bavail.toNat * bsize.toNat < minBytes.toNat

/-- The file system was readable and its free space fits in 64 bits. -/
def PlainStat : StatFs → Prop
  | .err => False
  | .ok bavail bsize => bavail.toNat * bsize.toNat < 2 ^ 64

/-- The action that the operator asked for. -/
def Configured (action : String) : Option DiskAction :=
  if action = "handover" then some .handover else if action = "terminate" then some .terminate else none

theorem lowDisk_iff {m : UInt64} {r : StatFs} (h : PlainStat r) : lowDisk m r = true ↔ FreeBelow m r := by
  cases r with
  | err => cases h
  | ok b s =>
    simp only [lowDisk, FreeBelow, decide_eq_true_eq, UInt64.lt_iff_toNat_lt, UInt64.toNat_mul]
    have h' : b.toNat * s.toNat < 2 ^ 64 := h
    rw [Nat.mod_eq_of_lt h']

theorem diskAction_eq (a : String) : diskAction a = Configured a := by
  unfold diskAction Configured
  by_cases h : a = "none"
  · subst h; decide
  · rw [if_neg h]

/-- What holds in every execution. -/
structure DogInv (a : String) (m : UInt64) (i : Int) (s : Dog) : Prop where
  action : s.action = a
  minBytes : s.minBytes = m
  log : ∀ x ∈ s.log, x.2 = if lowDisk m x.1 then diskAction a else none
  off : i ≤ 0 → s.pc = .gone ∧ s.log = []
  token : (∃ x ∈ s.log, x.2 = some .terminate) → s.pc = .sending ∨ 0 < s.tokens ∨ s.main ≠ .waiting
  send : s.pc = .sending → diskAction a = some .terminate
  panic : s.panicked = true → diskAction a = some .terminate
  closed : s.closed = true → s.main = .done
  cap : s.tokens ≤ 1

theorem dogInv_start (a : String) (m : UInt64) (i : Int) : DogInv a m i (Dog.start a m i) where
  action := rfl
  minBytes := rfl
  log := nofun
  off := fun h => ⟨by simp [Dog.start, h], rfl⟩
  token := nofun
  send := by
    intro h
    have h : (if i ≤ 0 then DogPc.gone else DogPc.idle) = .sending := h
    split at h <;> cases h
  panic := nofun
  closed := nofun
  cap := Nat.zero_le _

theorem dogInv_step {a : String} {m : UInt64} {i : Int} {s s' : Dog} (h : DogInv a m i s) (st : DogStep s s') :
    DogInv a m i s' := by
  obtain ⟨h1, h2, h3, h4, h5, h6, h7, h8, h9⟩ := h
  have logapp : ∀ (r : StatFs) (x : Option DiskAction), x = (if lowDisk m r then diskAction a else none) →
      ∀ y ∈ s.log ++ [(r, x)], y.2 = if lowDisk m y.1 then diskAction a else none := by
    intro r x hx y hy
    rcases List.mem_append.1 hy with hy | hy
    · exact h3 y hy
    · rw [List.mem_singleton] at hy
      rw [hy]; exact hx
  cases st with
  | exit hp h hc =>
    refine ⟨h1, h2, h3, fun hi => ⟨rfl, (h4 hi).2⟩, fun hx => ?_, nofun, h7, h8, h9⟩
    rcases h5 hx with e | e | e
    · rw [h] at e; cases e
    · exact .inr (.inl e)
    · exact .inr (.inr e)
  | tick hp h =>
    refine ⟨h1, h2, h3, fun hi => ?_, fun hx => ?_, nofun, h7, h8, h9⟩
    · have := (h4 hi).1; rw [h] at this; cases this
    · rcases h5 hx with e | e | e
      · rw [h] at e; cases e
      · exact .inr (.inl e)
      · exact .inr (.inr e)
  | fine r hp h hr =>
    rw [h2] at hr
    refine ⟨h1, h2, logapp r none (by rw [hr]; rfl), fun hi => ?_, fun hx => ?_, nofun, h7, h8, h9⟩
    · have := (h4 hi).1; rw [h] at this; cases this
    · obtain ⟨x, hx, hxt⟩ := hx
      have : ∃ x ∈ s.log, x.2 = some .terminate := by
        rcases List.mem_append.1 hx with hx | hx
        · exact ⟨x, hx, hxt⟩
        · rw [List.mem_singleton] at hx; rw [hx] at hxt; cases hxt
      rcases h5 this with e | e | e
      · rw [h] at e; cases e
      · exact .inr (.inl e)
      · exact .inr (.inr e)
  | low r hp h hr ha =>
    rw [h2] at hr
    refine ⟨h1, h2, logapp r _ (by rw [hr, h1]; rfl), fun hi => ?_, fun hx => ?_, nofun, h7, h8, h9⟩
    · have := (h4 hi).1; rw [h] at this; cases this
    · obtain ⟨x, hx, hxt⟩ := hx
      have : ∃ x ∈ s.log, x.2 = some .terminate := by
        rcases List.mem_append.1 hx with hx | hx
        · exact ⟨x, hx, hxt⟩
        · rw [List.mem_singleton] at hx; rw [hx] at hxt; exact (ha hxt).elim
      rcases h5 this with e | e | e
      · rw [h] at e; cases e
      · exact .inr (.inl e)
      · exact .inr (.inr e)
  | lowTerm r hp h hr ha =>
    rw [h2] at hr
    rw [h1] at ha
    refine ⟨h1, h2, logapp r _ (by rw [hr, ha]; rfl), fun hi => ?_, fun hx => .inl rfl, fun _ => ha, h7, h8, h9⟩
    have := (h4 hi).1; rw [h] at this; cases this
  | send hp h hc ht =>
    refine ⟨h1, h2, h3, fun hi => ?_, fun hx => .inr (.inl (Nat.succ_pos _)), nofun, h7, h8, ht⟩
    have := (h4 hi).1; rw [h] at this; cases this
  | sendClosed hp h hc =>
    exact ⟨h1, h2, h3, h4, h5, h6, fun _ => h6 h, h8, h9⟩
  | signal hp h =>
    refine ⟨h1, h2, h3, h4, fun hx => .inr (.inr nofun), h6, h7, fun hc => ?_, h9⟩
    have := h8 hc; rw [h] at this; cases this
  | mustStop hp h ht =>
    refine ⟨h1, h2, h3, h4, fun hx => .inr (.inr nofun), h6, h7, fun hc => ?_, Nat.le_trans (Nat.sub_le _ _) h9⟩
    have := h8 hc; rw [h] at this; cases this
  | cancel hp h =>
    refine ⟨h1, h2, h3, h4, fun hx => .inr (.inr nofun), h6, h7, fun hc => ?_, h9⟩
    have := h8 hc; rw [h] at this; cases this
  | close hp h =>
    exact ⟨h1, h2, h3, h4, fun hx => .inr (.inr nofun), h6, h7, fun _ => rfl, h9⟩

theorem dogInv_reach {a : String} {m : UInt64} {i : Int} {s : Dog} (h : DogReach (Dog.start a m i) s) : DogInv a m i s := by
  induction h with
  | refl => exact dogInv_start a m i
  | step _ st ih => exact dogInv_step ih st

/-- **C57** (for readable file systems with less than 2^64 free bytes). In every execution, after every check the
configured action was performed if the free space was below the minimum, and none otherwise. -/
theorem C57_action (action : String) (minBytes : UInt64) (interval : Int) (s : Dog)
    (h : DogReach (Dog.start action minBytes interval) s) (r : StatFs) (act : Option DiskAction) (hx : (r, act) ∈ s.log)
    (hr : PlainStat r) :
    (FreeBelow minBytes r → act = Configured action) ∧ (¬ FreeBelow minBytes r → act = none) := by
  have e := (dogInv_reach h).log _ hx
  have e : act = if lowDisk minBytes r then diskAction action else none := e
  constructor
  · intro hf
    rw [e, (lowDisk_iff hr).2 hf, ← diskAction_eq]; rfl
  · intro hf
    rw [e]
    exact if_neg (fun c => hf ((lowDisk_iff hr).1 c))

/-- **C57** (no other action): whatever the checks return, the only action ever performed is the configured one. -/
theorem C57_no_other_action (action : String) (minBytes : UInt64) (interval : Int) (s : Dog)
    (h : DogReach (Dog.start action minBytes interval) s) (r : StatFs) (act : DiskAction) (hx : (r, some act) ∈ s.log) :
    Configured action = some act := by
  have e := (dogInv_reach h).log _ hx
  have e : some act = if lowDisk minBytes r then diskAction action else none := e
  split at e
  · rw [← diskAction_eq]; exact e.symm
  · cases e

/-- **C57** (counterexamples to "above the minimum no action is performed"): with 2^32 free blocks of 2^32 bytes the
product wraps to zero, and the server hands over although there is plenty of space; and a failing `statfs` counts as low
space. -/
theorem C57_wrap_counterexample :
    (∃ s, DogReach (Dog.start "handover" 10485760 1) s ∧ (StatFs.ok 4294967296 4294967296, some .handover) ∈ s.log) ∧
    ¬ FreeBelow 10485760 (StatFs.ok 4294967296 4294967296) ∧
    (∃ s, DogReach (Dog.start "terminate" 0 1) s ∧ (StatFs.err, some .terminate) ∈ s.log) := by
  refine ⟨⟨_, .step (.step .refl (.tick rfl rfl)) (.low (.ok 4294967296 4294967296) rfl rfl (by decide) (by decide)), by decide⟩,
    by unfold FreeBelow; decide, ⟨_, .step (.step .refl (.tick rfl rfl)) (.lowTerm .err rfl rfl (by decide) (by decide)), by decide⟩⟩

/-- **C57** (terminate reaches `main`). Once a check has decided to terminate, `main` has left its wait, or a token is
waiting for it, or the watchdog is about to send one, for which there is room as soon as `main` has taken the last. -/
theorem C57_terminate_delivered (minBytes : UInt64) (interval : Int) (s : Dog)
    (h : DogReach (Dog.start "terminate" minBytes interval) s) (hx : ∃ r, (r, some .terminate) ∈ s.log)
    (hm : s.main = .waiting) (hp : s.panicked = false) :
    (0 < s.tokens ∧ ∃ s', DogStep s s' ∧ s'.main = .leaving) ∨
    (s.pc = .sending ∧ s.tokens = 0 ∧ ∃ s', DogStep s s' ∧ 0 < s'.tokens ∧ s'.main = .waiting) := by
  have inv := dogInv_reach h
  obtain ⟨r, hx⟩ := hx
  have hcl : s.closed = false := by
    cases hc : s.closed with
    | false => rfl
    | true => have := inv.closed hc; rw [hm] at this; cases this
  by_cases ht : 0 < s.tokens
  · exact .inl ⟨ht, _, .mustStop hp hm ht, rfl⟩
  · rcases inv.token ⟨_, hx, rfl⟩ with e | e | e
    · exact .inr ⟨e, by omega, _, .send hp e hcl (by omega), Nat.succ_pos _, hm⟩
    · exact (ht e).elim
    · exact (e hm).elim

/-- What is true of the watchdog while nobody has cancelled it. -/
theorem dog_alive {a : String} {m : UInt64} {i : Int} {s : Dog} (h : DogReach (Dog.start a m i) s) :
    ((s.main = .waiting ∨ s.main = .leaving) → s.cancelled = false) ∧ (0 < i → s.cancelled = false → s.pc ≠ .gone) := by
  induction h with
  | refl =>
    refine ⟨fun _ => rfl, fun hi _ => ?_⟩
    show (if i ≤ 0 then DogPc.gone else DogPc.idle) ≠ .gone
    rw [if_neg (by omega)]
    nofun
  | step _ st ih =>
    obtain ⟨h1, h2⟩ := ih
    cases st with
    | exit hp h hc => exact ⟨h1, fun _ c => by rw [show _ = true from hc] at c; cases c⟩
    | tick hp h => exact ⟨h1, fun _ _ => nofun⟩
    | fine r hp h hr => exact ⟨h1, fun _ _ => nofun⟩
    | low r hp h hr ha => exact ⟨h1, fun _ _ => nofun⟩
    | lowTerm r hp h hr ha => exact ⟨h1, fun _ _ => nofun⟩
    | send hp h hc ht => exact ⟨h1, fun _ _ => nofun⟩
    | sendClosed hp h hc => exact ⟨h1, h2⟩
    | signal hp h => exact ⟨fun _ => h1 (.inl h), h2⟩
    | mustStop hp h ht => exact ⟨fun _ => h1 (.inl h), h2⟩
    | cancel hp h =>
      refine ⟨fun c => ?_, fun _ c => ?_⟩
      · rcases c with c | c <;> cases c
      · cases c
    | close hp h =>
      refine ⟨fun c => ?_, h2⟩
      rcases c with c | c <;> cases c

/-- **C57** (keeps checking). As long as `main` waits and has not been told to stop, the watchdog goes on: whatever the file
system will say, it gets to the next check, acts on it, and needs nobody else for that. -/
theorem C57_keeps_checking (action : String) (minBytes : UInt64) (interval : Int) (hi : 0 < interval) (s : Dog)
    (h : DogReach (Dog.start action minBytes interval) s) (hm : s.main = .waiting) (ht : s.tokens = 0)
    (hp : s.panicked = false) (r : StatFs) :
    ∃ s' act, DogReach s s' ∧ s'.main = .waiting ∧ s'.log = s.log ++ [(r, act)] := by
  have inv := dogInv_reach h
  have hg := (dog_alive h).2 hi ((dog_alive h).1 (.inl hm))
  have hcl : s.closed = false := by
    cases hc : s.closed with
    | false => rfl
    | true => have := inv.closed hc; rw [hm] at this; cases this
  have check : ∀ t : Dog, t.panicked = false → t.pc = .checking → t.main = .waiting →
      ∃ s' act, DogStep t s' ∧ s'.main = .waiting ∧ s'.log = t.log ++ [(r, act)] := by
    intro t h1 h2 h3
    cases hr : lowDisk t.minBytes r with
    | false => exact ⟨_, _, .fine r h1 h2 hr, h3, rfl⟩
    | true =>
      by_cases ha : diskAction t.action = some .terminate
      · exact ⟨_, _, .lowTerm r h1 h2 hr ha, h3, rfl⟩
      · exact ⟨_, _, .low r h1 h2 hr ha, h3, rfl⟩
  cases hpc : s.pc with
  | gone => exact (hg hpc).elim
  | checking =>
    obtain ⟨s', act, h1, h2, h3⟩ := check s hp hpc hm
    exact ⟨s', act, .step .refl h1, h2, h3⟩
  | idle =>
    obtain ⟨s', act, h1, h2, h3⟩ := check { s with pc := .checking } hp rfl hm
    exact ⟨s', act, .step (.step .refl (.tick hp hpc)) h1, h2, h3⟩
  | sending =>
    obtain ⟨s', act, h1, h2, h3⟩ := check { s with pc := .checking, tokens := s.tokens + 1 } hp rfl hm
    exact ⟨s', act, .step (.step (.step .refl (.send hp hpc hcl (by omega)))
      (.tick (s := { s with pc := .idle, tokens := s.tokens + 1 }) hp rfl)) h1, h2, h3⟩

/-- **C57** (disabled): with an interval of zero or less nothing is ever checked. -/
theorem C57_disabled (action : String) (minBytes : UInt64) (interval : Int) (hi : interval ≤ 0) (s : Dog)
    (h : DogReach (Dog.start action minBytes interval) s) : s.log = [] ∧ s.panicked = false := by
  refine ⟨((dogInv_reach h).off hi).2, ?_⟩
  induction h with
  | refl => rfl
  | step h st ih =>
    have hg := ((dogInv_reach h).off hi).1
    cases st with
    | sendClosed hp h' hc => rw [hg] at h'; cases h'
    | exit hp _ _ => exact hp
    | tick hp _ => exact hp
    | fine _ hp _ _ => exact hp
    | low _ hp _ _ _ => exact hp
    | lowTerm _ hp _ _ _ => exact hp
    | send hp _ _ _ => exact hp
    | signal hp _ => exact hp
    | mustStop hp _ _ => exact hp
    | cancel hp _ => exact hp
    | close hp _ => exact hp

/-- **C57** (unknown actions): any other action than the three is refused before anything else is done. -/
theorem C57_unknown_refused {torn : Bool} (y : Yaml) (a : NewArgs) (d d' : Disk) (l o)
    (ha : a.action ≠ "none" ∧ a.action ≠ "handover" ∧ a.action ≠ "terminate") (h : FRun torn (newServer y a) d l o d') :
    l = [] ∧ d' = d ∧ (o = .crashed ∨ o = .returned (.error .badAction)) := by
  have hb : actionOk a.action = false := by simp [actionOk, ha]
  unfold newServer at h
  rw [hb] at h
  exact frun_ret h

/-- A run with both outcomes: a check with enough space, one without, and the signal to `main`. -/
example : ∃ s, DogReach (Dog.start "terminate" 100 5) s ∧
    s.log = [(.ok 10 10, none), (.ok 9 11, some .terminate)] ∧ s.main = .leaving :=
  ⟨_, .step (.step (.step (.step (.step (.step .refl (.tick rfl rfl)) (.fine (.ok 10 10) rfl rfl (by decide)))
    (.tick rfl rfl)) (.lowTerm (.ok 9 11) rfl rfl (by decide) (by decide))) (.send rfl rfl rfl (by decide)))
    (.mustStop rfl rfl (by decide)), rfl, rfl⟩

/-! ## C68: shutting down -/

/-- **C68** (what does hold): unless the action is "terminate", shutting down never makes the watchdog panic. -/
theorem C68_no_panic_partial (action : String) (minBytes : UInt64) (interval : Int) (s : Dog)
    (h : DogReach (Dog.start action minBytes interval) s) (hp : s.panicked = true) : action = "terminate" := by
  have := (dogInv_reach h).panic hp
  rw [diskAction_eq] at this
  unfold Configured at this
  split at this
  · cases this
  · split at this
    · assumption
    · cases this

/-- **C68** (the English property does not hold): with the action "terminate", a signal that arrives while the watchdog is
checking the disk leads to a send on the closed channel, which crashes the process. -/
theorem C68_shutdown_counterexample :
    ∃ s, DogReach (Dog.start "terminate" 100 5) s ∧ s.main = .done ∧ s.panicked = true :=
  ⟨_, .step (.step (.step (.step (.step (.step .refl (.tick rfl rfl)) (.signal rfl rfl)) (.cancel rfl rfl)) (.close rfl rfl))
    (.lowTerm (.ok 1 1) rfl rfl (by decide) (by decide))) (.sendClosed rfl rfl rfl), rfl, rfl⟩

/-- Exactly the three actions that are documented are accepted; with any other one `New` reports it before it has looked at the
directory. -/
theorem C48_actions (y : Yaml) (a : NewArgs) (d d' : Disk) (l o) :
    (a.action ≠ "none" ∧ a.action ≠ "handover" ∧ a.action ≠ "terminate" →
      FRun false (newServer y a) d l o d' → l = [] ∧ d' = d ∧ (o = .crashed ∨ o = .returned (.error .badAction))) ∧
    (a.action = "none" ∨ a.action = "handover" ∨ a.action = "terminate" →
      newServer y a = newServer y { a with action := "none" }) := by
  constructor
  · rintro ⟨h1, h2, h3⟩ h
    have hb : actionOk a.action = false := by simp [actionOk, h1, h2, h3]
    unfold newServer at h
    rw [hb] at h
    exact frun_ret h
  · intro h
    have hb : actionOk a.action = true := by rcases h with h | h | h <;> rw [h] <;> decide
    unfold newServer
    rw [hb]
    rfl

end Verif
