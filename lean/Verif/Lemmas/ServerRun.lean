import Verif.Model.Server

/-!
# Runs of `New`
-/

namespace Verif

variable {α β : Type} {torn : Bool}

theorem frun_ret {a : α} {d d' : Disk} {l o} (h : FRun torn (.ret a) d l o d') :
    l = [] ∧ d' = d ∧ (o = .crashed ∨ o = .returned a) := by
  cases h with
  | ret => exact ⟨rfl, rfl, .inr rfl⟩
  | crash => exact ⟨rfl, rfl, .inl rfl⟩

/-- A run of `p` followed by `f` either ends with a crash inside of `p`, or is a run of `p` and then one of `f`. -/
theorem frun_bind {p : FProg α} {f : α → FProg β} {d d' : Disk} {l o} (h : FRun torn (p.bind f) d l o d') :
    (o = .crashed ∧ FRun torn p d l .crashed d') ∨
    (∃ a l₁ l₂ d₁, FRun torn p d l₁ (.returned a) d₁ ∧ FRun torn (f a) d₁ l₂ o d' ∧ l = l₁ ++ l₂) := by
  induction p generalizing d l with
  | ret a => exact .inr ⟨a, [], l, d, .ret a d, h, rfl⟩
  | exists? n k ih =>
    cases h with
    | crash => exact .inl ⟨rfl, .crash _ _⟩
    | exists? h =>
      rcases ih _ h with ⟨ho, h⟩ | ⟨a, l₁, l₂, d₁, h₁, h₂, e⟩
      · exact .inl ⟨ho, .exists? h⟩
      · exact .inr ⟨a, l₁, l₂, d₁, .exists? h₁, h₂, e⟩
    | existsErr h =>
      rcases ih _ h with ⟨ho, h⟩ | ⟨a, l₁, l₂, d₁, h₁, h₂, e⟩
      · exact .inl ⟨ho, .existsErr h⟩
      · exact .inr ⟨a, l₁, l₂, d₁, .existsErr h₁, h₂, e⟩
  | readDir k ih =>
    cases h with
    | crash => exact .inl ⟨rfl, .crash _ _⟩
    | readDir ns hn h =>
      rcases ih _ h with ⟨ho, h⟩ | ⟨a, l₁, l₂, d₁, h₁, h₂, e⟩
      · exact .inl ⟨ho, .readDir ns hn h⟩
      · exact .inr ⟨a, l₁, l₂, d₁, .readDir ns hn h₁, h₂, e⟩
    | readDirErr h =>
      rcases ih _ h with ⟨ho, h⟩ | ⟨a, l₁, l₂, d₁, h₁, h₂, e⟩
      · exact .inl ⟨ho, .readDirErr h⟩
      · exact .inr ⟨a, l₁, l₂, d₁, .readDirErr h₁, h₂, e⟩
  | read n k ih =>
    cases h with
    | crash => exact .inl ⟨rfl, .crash _ _⟩
    | read h =>
      rcases ih _ h with ⟨ho, h⟩ | ⟨a, l₁, l₂, d₁, h₁, h₂, e⟩
      · exact .inl ⟨ho, .read h⟩
      · exact .inr ⟨a, l₁, l₂, d₁, .read h₁, h₂, e⟩
    | readErr h =>
      rcases ih _ h with ⟨ho, h⟩ | ⟨a, l₁, l₂, d₁, h₁, h₂, e⟩
      · exact .inl ⟨ho, .readErr h⟩
      · exact .inr ⟨a, l₁, l₂, d₁, .readErr h₁, h₂, e⟩
  | remove n k ih =>
    cases h with
    | crash => exact .inl ⟨rfl, .crash _ _⟩
    | remove hp h =>
      rcases ih _ h with ⟨ho, h⟩ | ⟨a, l₁, l₂, d₁, h₁, h₂, e⟩
      · exact .inl ⟨ho, .remove hp h⟩
      · exact .inr ⟨a, l₁, l₂, d₁, .remove hp h₁, h₂, e⟩
    | removeErr h =>
      rcases ih _ h with ⟨ho, h⟩ | ⟨a, l₁, l₂, d₁, h₁, h₂, e⟩
      · exact .inl ⟨ho, .removeErr h⟩
      · exact .inr ⟨a, l₁, l₂, d₁, .removeErr h₁, h₂, e⟩
  | write n t k ih =>
    cases h with
    | crash => exact .inl ⟨rfl, .crash _ _⟩
    | write h =>
      rcases ih _ h with ⟨ho, h⟩ | ⟨a, l₁, l₂, d₁, h₁, h₂, e⟩
      · exact .inl ⟨ho, .write h⟩
      · exact .inr ⟨a, l₁, l₂, d₁, .write h₁, h₂, e⟩
    | writeErr h =>
      rcases ih _ h with ⟨ho, h⟩ | ⟨a, l₁, l₂, d₁, h₁, h₂, e⟩
      · exact .inl ⟨ho, .writeErr h⟩
      · exact .inr ⟨a, l₁, l₂, d₁, .writeErr h₁, h₂, e⟩
    | writeTornErr ht hp h =>
      rcases ih _ h with ⟨ho, h⟩ | ⟨a, l₁, l₂, d₁, h₁, h₂, e⟩
      · exact .inl ⟨ho, .writeTornErr ht hp h⟩
      · exact .inr ⟨a, l₁, l₂, d₁, .writeTornErr ht hp h₁, h₂, e⟩
    | writeTornCrash ht hp => exact .inl ⟨rfl, .writeTornCrash ht hp⟩
  | reconfigure ns k ih =>
    cases h with
    | crash => exact .inl ⟨rfl, .crash _ _⟩
    | reconfigure h =>
      rcases ih _ h with ⟨ho, h⟩ | ⟨a, l₁, l₂, d₁, h₁, h₂, e⟩
      · exact .inl ⟨ho, .reconfigure h⟩
      · exact .inr ⟨a, l₁, l₂, d₁, .reconfigure h₁, h₂, e⟩
    | reconfigureErr h =>
      rcases ih _ h with ⟨ho, h⟩ | ⟨a, l₁, l₂, d₁, h₁, h₂, e⟩
      · exact .inl ⟨ho, .reconfigureErr h⟩
      · exact .inr ⟨a, l₁, l₂, d₁, .reconfigureErr h₁, h₂, e⟩
  | loadCerts k ih =>
    cases h with
    | crash => exact .inl ⟨rfl, .crash _ _⟩
    | loadCerts ok h =>
      rcases ih _ h with ⟨ho, h⟩ | ⟨a, l₁, l₂, d₁, h₁, h₂, e⟩
      · exact .inl ⟨ho, .loadCerts ok h⟩
      · exact .inr ⟨a, l₁, l₂, d₁, .loadCerts ok h₁, h₂, e⟩
  | appNew opts k ih =>
    cases h with
    | crash => exact .inl ⟨rfl, .crash _ _⟩
    | appNew ok d₁ h =>
      rcases ih _ h with ⟨ho, h⟩ | ⟨a, l₁, l₂, d₁', h₁, h₂, e⟩
      · exact .inl ⟨ho, .appNew ok d₁ h⟩
      · exact .inr ⟨a, (opts, d) :: l₁, l₂, d₁', .appNew ok d₁ h₁, h₂, by rw [e]; rfl⟩
    | appCrash => exact .inl ⟨rfl, .appCrash _⟩

theorem frun_bind_intro {p : FProg α} {f : α → FProg β} {d d₁ d' : Disk} {l₁ l₂ o} {a : α}
    (h₁ : FRun torn p d l₁ (.returned a) d₁) (h₂ : FRun torn (f a) d₁ l₂ o d') :
    FRun torn (p.bind f) d (l₁ ++ l₂) o d' := by
  induction p generalizing d l₁ with
  | ret a' =>
    obtain ⟨e1, e2, e3⟩ := frun_ret h₁
    subst e1 e2
    rcases e3 with e3 | e3
    · cases e3
    · cases e3; exact h₂
  | exists? n k ih =>
    cases h₁ with
    | exists? h => exact .exists? (ih _ h)
    | existsErr h => exact .existsErr (ih _ h)
  | readDir k ih =>
    cases h₁ with
    | readDir ns hn h => exact .readDir ns hn (ih _ h)
    | readDirErr h => exact .readDirErr (ih _ h)
  | read n k ih =>
    cases h₁ with
    | read h => exact .read (ih _ h)
    | readErr h => exact .readErr (ih _ h)
  | remove n k ih =>
    cases h₁ with
    | remove hp h => exact .remove hp (ih _ h)
    | removeErr h => exact .removeErr (ih _ h)
  | write n t k ih =>
    cases h₁ with
    | write h => exact .write (ih _ h)
    | writeErr h => exact .writeErr (ih _ h)
    | writeTornErr ht hp h => exact .writeTornErr ht hp (ih _ h)
  | reconfigure ns k ih =>
    cases h₁ with
    | reconfigure h => exact .reconfigure (ih _ h)
    | reconfigureErr h => exact .reconfigureErr (ih _ h)
  | loadCerts k ih =>
    cases h₁ with
    | loadCerts ok h => exact .loadCerts ok (ih _ h)
  | appNew opts k ih =>
    cases h₁ with
    | appNew ok dd h => exact .appNew ok dd (ih _ h)

/-- The same for `andThen`. -/
theorem frun_andThen {p : FProg (Except NewErr α)} {f : α → FProg (Except NewErr β)} {d d' : Disk} {l o}
    (h : FRun torn (p.andThen f) d l o d') :
    (o = .crashed ∧ FRun torn p d l .crashed d') ∨
    (∃ e, (o = .crashed ∨ o = .returned (.error e)) ∧ FRun torn p d l (.returned (.error e)) d') ∨
    (∃ a l₁ l₂ d₁, FRun torn p d l₁ (.returned (.ok a)) d₁ ∧ FRun torn (f a) d₁ l₂ o d' ∧ l = l₁ ++ l₂) := by
  rcases frun_bind h with h | ⟨a, l₁, l₂, d₁, h₁, h₂, e⟩
  · exact .inl h
  · cases a with
    | error er =>
      obtain ⟨e1, e2, e3⟩ := frun_ret h₂
      subst e1 e2
      rw [List.append_nil] at e
      subst e
      exact .inr (.inl ⟨er, e3, h₁⟩)
    | ok a => exact .inr (.inr ⟨a, l₁, l₂, d₁, h₁, h₂, e⟩)

/-- A program that only reads. -/
inductive ReadOnly : FProg α → Prop
  | ret (a) : ReadOnly (.ret a)
  | exists? {n k} (h : ∀ r, ReadOnly (k r)) : ReadOnly (.exists? n k)
  | read {n k} (h : ∀ r, ReadOnly (k r)) : ReadOnly (.read n k)
  | loadCerts {k} (h : ∀ r, ReadOnly (k r)) : ReadOnly (.loadCerts k)

theorem ReadOnly.run {p : FProg α} (hp : ReadOnly p) {d d' : Disk} {l o} (h : FRun torn p d l o d') :
    l = [] ∧ d' = d := by
  induction hp generalizing d l with
  | ret a => exact ⟨(frun_ret h).1, (frun_ret h).2.1⟩
  | exists? _ ih =>
    cases h with
    | crash => exact ⟨rfl, rfl⟩
    | exists? h => exact ih _ h
    | existsErr h => exact ih _ h
  | read _ ih =>
    cases h with
    | crash => exact ⟨rfl, rfl⟩
    | read h => exact ih _ h
    | readErr h => exact ih _ h
  | loadCerts _ ih =>
    cases h with
    | crash => exact ⟨rfl, rfl⟩
    | loadCerts ok h => exact ih _ h

theorem handleDomain_readOnly (y : Yaml) : ReadOnly (handleDomain y) := by
  refine .exists? fun r => ?_
  rcases r with _ | _ | _
  · exact .ret _
  · exact .ret _
  · refine .read fun t => ?_
    show ReadOnly (match t.bind y.domain with | none => _ | some d => _)
    cases t.bind y.domain <;> exact .ret _

theorem handleTls_readOnly (a : NewArgs) : ReadOnly (handleTls a) := by
  unfold handleTls
  cases a.tls
  · exact .ret _
  · refine .loadCerts fun ok => ?_
    cases ok
    · exact .ret _
    · show ReadOnly (match minVersion a.minTls with | none => _ | some d => _)
      cases minVersion a.minTls <;> exact .ret _

theorem handleTuning_readOnly (y : Yaml) : ReadOnly (handleTuning y) := by
  refine .exists? fun r => ?_
  rcases r with _ | _ | _
  · exact .ret _
  · exact .ret _
  · refine .read fun t => ?_
    show ReadOnly (match t.bind y.tuning with | none => _ | some d => _)
    cases t.bind y.tuning <;> exact .ret _

/-- What comes after `init.yaml` and `update.yaml`: reading, and then at most one call of `app.New`. -/
def afterFiles (y : Yaml) (a : NewArgs) (init : Option InitCfg) : FProg (Except NewErr Intervals) :=
  (handleDomain y).andThen fun domain =>
  (handleTls a).andThen fun tls =>
  (handleTuning y).andThen fun tuning =>
    .appNew ⟨init, domain, tls, adjustSnapshot (tuning.bind (·.snapshot)), tuning.bind (·.latency), a.diskMode⟩ fun ok =>
      if ok then .ret (.ok (intervals a tuning)) else .ret (.error .app)

theorem newServer_eq {y : Yaml} {a : NewArgs} (h : actionOk a.action = true) :
    newServer y a = (handleFiles y).andThen (afterFiles y a) := by
  unfold newServer
  rw [h]
  rfl

/-- The rest of `New` either calls `app.New` never and leaves the directory alone, or once, with the options and the
directory given. -/
theorem afterFiles_run {y : Yaml} {a : NewArgs} {init : Option InitCfg} {d d' : Disk} {l o}
    (h : FRun torn (afterFiles y a init) d l o d') :
    (l = [] ∧ d' = d ∧ (o = .crashed ∨ ∃ e, o = .returned (.error e))) ∨
    (∃ opts, l = [(opts, d)] ∧ opts.init = init ∧ opts.diskMode = a.diskMode) := by
  rcases frun_andThen h with ⟨ho, h⟩ | ⟨e, ho, h⟩ | ⟨dom, l₁, l₂, d₁, h₁, h, e⟩
  · exact .inl ⟨((handleDomain_readOnly y).run h).1, ((handleDomain_readOnly y).run h).2, .inl ho⟩
  · refine .inl ⟨((handleDomain_readOnly y).run h).1, ((handleDomain_readOnly y).run h).2, ?_⟩
    rcases ho with ho | ho
    · exact .inl ho
    · exact .inr ⟨e, ho⟩
  obtain ⟨e1, e2⟩ := (handleDomain_readOnly y).run h₁
  subst e1 e2 e
  rcases frun_andThen h with ⟨ho, h⟩ | ⟨e, ho, h⟩ | ⟨tls, l₁, l₃, d₁, h₁, h, e⟩
  · exact .inl ⟨((handleTls_readOnly a).run h).1, ((handleTls_readOnly a).run h).2, .inl ho⟩
  · refine .inl ⟨((handleTls_readOnly a).run h).1, ((handleTls_readOnly a).run h).2, ?_⟩
    rcases ho with ho | ho
    · exact .inl ho
    · exact .inr ⟨e, ho⟩
  obtain ⟨e1, e2⟩ := (handleTls_readOnly a).run h₁
  subst e1 e2 e
  rcases frun_andThen h with ⟨ho, h⟩ | ⟨e, ho, h⟩ | ⟨tun, l₁, l₄, d₁, h₁, h, e⟩
  · exact .inl ⟨((handleTuning_readOnly y).run h).1, ((handleTuning_readOnly y).run h).2, .inl ho⟩
  · refine .inl ⟨((handleTuning_readOnly y).run h).1, ((handleTuning_readOnly y).run h).2, ?_⟩
    rcases ho with ho | ho
    · exact .inl ho
    · exact .inr ⟨e, ho⟩
  obtain ⟨e1, e2⟩ := (handleTuning_readOnly y).run h₁
  subst e1 e2 e
  cases h with
  | crash => exact .inl ⟨rfl, rfl, .inl rfl⟩
  | appNew ok d₁ h =>
    cases ok
    · obtain ⟨e1, e2, e3⟩ := frun_ret h
      subst e1
      exact .inr ⟨_, rfl, rfl, rfl⟩
    · obtain ⟨e1, e2, e3⟩ := frun_ret h
      subst e1
      exact .inr ⟨_, rfl, rfl, rfl⟩
  | appCrash d₁ => exact .inr ⟨_, rfl, rfl, rfl⟩

/-- Runs of the `init.yaml` part: it never calls `app.New`; it succeeds only after removing `init.yaml`, and only if every
file is an expected one; otherwise the directory is either untouched or just lacks `init.yaml`. -/
theorem handleInit_run {y : Yaml} {d d' : Disk} {l o} (h : FRun torn (handleInit y) d l o d') :
    l = [] ∧
    ((d' = d ∧ (o = .crashed ∨ ∃ e, o = .returned (.error e))) ∨
     (d' = d.set "init.yaml" none ∧ (∀ n, (d.files n).isSome → n ∈ expectedFiles) ∧
        ∃ c, (d.files "init.yaml").bind y.init = some c ∧ c.address ≠ "" ∧ (o = .crashed ∨ o = .returned (.ok (some c))))) := by
  unfold handleInit at h
  cases h with
  | crash => exact ⟨rfl, .inl ⟨rfl, .inl rfl⟩⟩
  | readDirErr h =>
    obtain ⟨e1, e2, e3⟩ := frun_ret h
    refine ⟨e1, .inl ⟨e2, ?_⟩⟩
    rcases e3 with e | e
    · exact .inl e
    · exact .inr ⟨_, e⟩
  | readDir names hn h =>
    simp only at h
    split at h
    · obtain ⟨e1, e2, e3⟩ := frun_ret h
      refine ⟨e1, .inl ⟨e2, ?_⟩⟩
      rcases e3 with e | e
      · exact .inl e
      · exact .inr ⟨_, e⟩
    · next hf =>
      have hall : ∀ n, (d.files n).isSome → n ∈ expectedFiles := by
        intro n hs
        have hmem := (hn n).2 hs
        have := List.find?_eq_none.1 hf n hmem
        simpa using this
      cases h with
      | crash => exact ⟨rfl, .inl ⟨rfl, .inl rfl⟩⟩
      | readErr h =>
        obtain ⟨e1, e2, e3⟩ := frun_ret h
        refine ⟨e1, .inl ⟨e2, ?_⟩⟩
        rcases e3 with e | e
        · exact .inl e
        · exact .inr ⟨_, e⟩
      | read h =>
        simp only at h
        split at h
        · obtain ⟨e1, e2, e3⟩ := frun_ret h
          refine ⟨e1, .inl ⟨e2, ?_⟩⟩
          rcases e3 with e | e
          · exact .inl e
          · exact .inr ⟨_, e⟩
        · next c hc =>
          by_cases ha : c.address = ""
          · rw [if_pos ha] at h
            obtain ⟨e1, e2, e3⟩ := frun_ret h
            refine ⟨e1, .inl ⟨e2, ?_⟩⟩
            rcases e3 with e | e
            · exact .inl e
            · exact .inr ⟨_, e⟩
          · rw [if_neg ha] at h
            cases h with
            | crash => exact ⟨rfl, .inl ⟨rfl, .inl rfl⟩⟩
            | remove hp h =>
              obtain ⟨e1, e2, e3⟩ := frun_ret h
              exact ⟨e1, .inr ⟨e2, hall, c, hc, ha, e3⟩⟩
            | removeErr h =>
              obtain ⟨e1, e2, e3⟩ := frun_ret h
              refine ⟨e1, .inl ⟨e2, ?_⟩⟩
              rcases e3 with e | e
              · exact .inl e
              · exact .inr ⟨_, e⟩

/-- The directory of a node whose address is being changed to `addr`: nothing done yet; the membership changed; also
`info.yaml`; also `cluster.yaml`; everything done. -/
def UpdateStage (y : Yaml) (d₀ d : Disk) (info : NodeInfo) : Prop :=
  d.files "init.yaml" = none ∧
  ((d.files "update.yaml" = d₀.files "update.yaml" ∧
      (∃ old, (d.files "info.yaml").bind y.info = some old ∧ { old with address := info.address } = info)) ∨
   (d.files "update.yaml" = none ∧ d.files "info.yaml" = some (y.printInfo info) ∧
      d.files "cluster.yaml" = some (y.printCluster [info]) ∧ d.members = [info]))

theorem set_same (d : Disk) (n : String) (t : Option Text) : (d.set n t).files n = t := if_pos rfl

theorem set_other (d : Disk) {n m : String} (t : Option Text) (h : m ≠ n) : (d.set n t).files m = d.files m := if_neg h

/-- With whole writes, every run of the `update.yaml` part leads from a stage to a stage, and to the last one if it
succeeds. -/
theorem handleUpdate_run {y : Yaml} {d₀ d d' : Disk} {info : NodeInfo} {l o}
    (hu : (d₀.files "update.yaml").bind y.update = some info.address)
    (hst : UpdateStage y d₀ d info) (hup : (d.files "update.yaml").isSome)
    (h : FRun false (handleUpdate y) d l o d') :
    l = [] ∧ UpdateStage y d₀ d' info ∧
    (∀ r, o = .returned (.ok r) → r = none ∧ d'.files "update.yaml" = none) := by
  obtain ⟨hin, hst⟩ := hst
  rcases hst with ⟨hup', old, hold, hi⟩ | ⟨hn, _⟩
  rotate_left
  · rw [hn] at hup; cases hup
  have hst : UpdateStage y d₀ d info := ⟨hin, .inl ⟨hup', old, hold, hi⟩⟩
  have fin : ∀ {l o} {a : Except NewErr (Option InitCfg)} {d'' : Disk}, FRun false (.ret a) d'' l o d' →
      (∀ r, a = .ok r → False) → UpdateStage y d₀ d'' info → l = [] ∧ UpdateStage y d₀ d' info ∧
      (∀ r, o = .returned (.ok r) → r = none ∧ d'.files "update.yaml" = none) := by
    intro l o a d'' h hne hs
    obtain ⟨e1, e2, e3⟩ := frun_ret h
    subst e1 e2
    refine ⟨rfl, hs, fun r hr => ?_⟩
    rcases e3 with e | e
    · rw [e] at hr; cases hr
    · rw [e] at hr; cases hr; exact (hne r rfl).elim
  have cr : ∀ {d'' : Disk}, UpdateStage y d₀ d'' info → ([] : List (AppOpts × Disk)) = [] ∧ UpdateStage y d₀ d'' info ∧
      (∀ r, (FOut.crashed : FOut (Except NewErr (Option InitCfg))) = .returned (.ok r) → r = none ∧ d''.files "update.yaml" = none) :=
    fun hs => ⟨rfl, hs, nofun⟩
  unfold handleUpdate at h
  cases h with
  | crash => exact cr hst
  | readErr h => exact fin h nofun hst
  | read h =>
    rw [hup'] at h
    simp only [hu] at h
    by_cases ha : info.address = ""
    · rw [if_pos ha] at h
      exact fin h nofun hst
    rw [if_neg ha] at h
    cases h with
    | crash => exact cr hst
    | readErr h => exact fin h nofun hst
    | read h =>
      simp only [hold, hi] at h
      cases h with
      | crash => exact cr hst
      | reconfigureErr h => exact fin h nofun hst
      | reconfigure h =>
        have s1 : UpdateStage y d₀ { d with members := [info] } info := ⟨hin, .inl ⟨hup', old, hold, hi⟩⟩
        simp only [if_true] at h
        cases h with
        | crash => exact cr s1
        | writeErr h => exact fin h nofun s1
        | writeTornErr ht => cases ht
        | writeTornCrash ht => cases ht
        | write h =>
          have s2 : UpdateStage y d₀ (Disk.set { d with members := [info] } "info.yaml" (some (y.printInfo info))) info := by
            refine ⟨(set_other _ _ (by decide)).trans hin, .inl ⟨(set_other _ _ (by decide)).trans hup', info, ?_, rfl⟩⟩
            rw [set_same]
            exact y.info_print info
          simp only [if_true] at h
          cases h with
          | crash => exact cr s2
          | writeErr h => exact fin h nofun s2
          | writeTornErr ht => cases ht
          | writeTornCrash ht => cases ht
          | write h =>
            have s3 : UpdateStage y d₀ (Disk.set (Disk.set { d with members := [info] } "info.yaml" (some (y.printInfo info)))
                "cluster.yaml" (some (y.printCluster [info]))) info := by
              refine ⟨(set_other _ _ (by decide)).trans s2.1, .inl ⟨?_, info, ?_, rfl⟩⟩
              · rw [set_other _ _ (by decide), set_other _ _ (by decide)]; exact hup'
              · rw [set_other _ _ (by decide), set_same]
                exact y.info_print info
            simp only [if_true] at h
            cases h with
            | crash => exact cr s3
            | removeErr h => exact fin h nofun s3
            | remove hp h =>
              obtain ⟨e1, e2, e3⟩ := frun_ret h
              subst e1 e2
              refine ⟨rfl, ⟨(set_other _ _ (by decide)).trans s3.1, .inr ⟨set_same _ _ _, ?_, ?_, rfl⟩⟩, fun r hr => ?_⟩
              · rw [set_other _ _ (by decide), set_other _ _ (by decide), set_same]
              · rw [set_other _ _ (by decide), set_same]
              · rcases e3 with e | e
                · rw [e] at hr; cases hr
                · rw [e] at hr; cases hr; exact ⟨rfl, set_same _ _ _⟩

/-- The `update.yaml` part does not touch `tuning.yaml`. -/
theorem handleUpdate_tuning {y : Yaml} {d d' : Disk} {l o} (h : FRun torn (handleUpdate y) d l o d') :
    d'.files "tuning.yaml" = d.files "tuning.yaml" := by
  have fin : ∀ {l o} {a : Except NewErr (Option InitCfg)} {d'' : Disk}, FRun torn (.ret a) d'' l o d' →
      d''.files "tuning.yaml" = d.files "tuning.yaml" → d'.files "tuning.yaml" = d.files "tuning.yaml" := by
    intro l o a d'' h e
    rw [(frun_ret h).2.1, e]
  unfold handleUpdate at h
  cases h with
  | crash => rfl
  | readErr h => exact fin h rfl
  | read h =>
    simp only at h
    split at h
    · exact fin h rfl
    · split at h
      · exact fin h rfl
      · cases h with
        | crash => rfl
        | readErr h => exact fin h rfl
        | read h =>
          simp only at h
          split at h
          · exact fin h rfl
          · cases h with
            | crash => rfl
            | reconfigureErr h => exact fin h rfl
            | reconfigure h =>
              simp only [if_true] at h
              cases h with
              | crash => rfl
              | writeErr h => exact fin h rfl
              | writeTornErr ht hp h => exact fin h (set_other _ _ (by decide))
              | writeTornCrash ht hp => exact set_other _ _ (by decide)
              | write h =>
                simp only [if_true] at h
                cases h with
                | crash => exact set_other _ _ (by decide)
                | writeErr h => exact fin h (set_other _ _ (by decide))
                | writeTornErr ht hp h =>
                  exact fin h ((set_other _ _ (by decide)).trans (set_other _ _ (by decide)))
                | writeTornCrash ht hp => exact (set_other _ _ (by decide)).trans (set_other _ _ (by decide))
                | write h =>
                  simp only [if_true] at h
                  cases h with
                  | crash => exact (set_other _ _ (by decide)).trans (set_other _ _ (by decide))
                  | removeErr h => exact fin h ((set_other _ _ (by decide)).trans (set_other _ _ (by decide)))
                  | remove hp h =>
                    exact fin h ((set_other _ _ (by decide)).trans
                      ((set_other _ _ (by decide)).trans (set_other _ _ (by decide))))

end Verif
