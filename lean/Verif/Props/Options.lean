import Verif.Props.Server
import Mathlib.Logic.Basic

/-!
# C80: the node runs with the configuration that was given

The arguments of the server and the files `failure-domain` and `tuning.yaml` decide the options with which dqlite is
started. Nothing is silently replaced by a default: a file that cannot be read, or a TLS version that is not known, stops
the server before dqlite is started.
-/

namespace Verif

/-- The documented names of TLS versions (`/repo/cmd/root.go:222`), with their numbers in the protocol; no name means the
documented default `tls12`. -/
def DocumentedTls (name : String) (version : Nat) : Prop :=
  (name, version) ∈ [("tls10", 0x0301), ("tls11", 0x0302), ("tls12", 0x0303), ("tls13", 0x0304), ("", 0x0303)]

/-- A program that reads anything, changes only the files in `S` and does not start dqlite. -/
inductive Within {α : Type} (S : List String) : FProg α → Prop
  | ret (a) : Within S (.ret a)
  | exists? {n k} (h : ∀ r, Within S (k r)) : Within S (.exists? n k)
  | readDir {k} (h : ∀ r, Within S (k r)) : Within S (.readDir k)
  | read {n k} (h : ∀ r, Within S (k r)) : Within S (.read n k)
  | remove {n k} (hn : n ∈ S) (h : ∀ r, Within S (k r)) : Within S (.remove n k)
  | write {n t k} (hn : n ∈ S) (h : ∀ r, Within S (k r)) : Within S (.write n t k)
  | reconfigure {ns k} (h : ∀ r, Within S (k r)) : Within S (.reconfigure ns k)
  | loadCerts {k} (h : ∀ r, Within S (k r)) : Within S (.loadCerts k)

theorem Within.run {α : Type} {torn : Bool} {S : List String} {p : FProg α} (hp : Within S p) {d d' : Disk} {l o}
    (h : FRun torn p d l o d') : l = [] ∧ ∀ n, n ∉ S → d'.files n = d.files n := by
  have other : ∀ (d : Disk) {n : String} (t : Option Text), n ∈ S → ∀ m, m ∉ S → (d.set n t).files m = d.files m :=
    fun d n t hn m hm => set_other d t fun e => hm (e ▸ hn)
  induction hp generalizing d l with
  | ret a => exact ⟨(frun_ret h).1, fun n _ => by rw [(frun_ret h).2.1]⟩
  | exists? _ ih =>
    cases h with
    | crash => exact ⟨rfl, fun _ _ => rfl⟩
    | exists? h => exact ih _ h
    | existsErr h => exact ih _ h
  | readDir _ ih =>
    cases h with
    | crash => exact ⟨rfl, fun _ _ => rfl⟩
    | readDir _ _ h => exact ih _ h
    | readDirErr h => exact ih _ h
  | read _ ih =>
    cases h with
    | crash => exact ⟨rfl, fun _ _ => rfl⟩
    | read h => exact ih _ h
    | readErr h => exact ih _ h
  | remove hn _ ih =>
    cases h with
    | crash => exact ⟨rfl, fun _ _ => rfl⟩
    | remove _ h => exact ⟨(ih _ h).1, fun m hm => ((ih _ h).2 m hm).trans (other _ _ hn m hm)⟩
    | removeErr h => exact ih _ h
  | write hn _ ih =>
    cases h with
    | crash => exact ⟨rfl, fun _ _ => rfl⟩
    | write h => exact ⟨(ih _ h).1, fun m hm => ((ih _ h).2 m hm).trans (other _ _ hn m hm)⟩
    | writeErr h => exact ih _ h
    | writeTornErr _ _ h => exact ⟨(ih _ h).1, fun m hm => ((ih _ h).2 m hm).trans (other _ _ hn m hm)⟩
    | writeTornCrash => exact ⟨rfl, fun m hm => other _ _ hn m hm⟩
  | reconfigure _ ih =>
    cases h with
    | crash => exact ⟨rfl, fun _ _ => rfl⟩
    | reconfigure h => exact (ih _ h : _)
    | reconfigureErr h => exact ih _ h
  | loadCerts _ ih =>
    cases h with
    | crash => exact ⟨rfl, fun _ _ => rfl⟩
    | loadCerts _ h => exact ih _ h

/-- The names of the files that the first part of `New` may change. -/
def ownFiles : List String := ["init.yaml", "update.yaml", "info.yaml", "cluster.yaml"]

theorem within_handleFiles (y : Yaml) : Within ownFiles (handleFiles y) := by
  refine .exists? fun r => ?_
  match r with
  | none => exact .ret _
  | some true =>
    refine .readDir fun r => ?_
    match r with
    | none => exact .ret _
    | some files =>
      dsimp only
      split
      · exact .ret _
      · refine .read fun t => ?_
        split
        · exact .ret _
        · split
          · exact .ret _
          · refine .remove (by decide) fun ok => ?_
            cases ok <;> exact .ret _
  | some false =>
    refine .exists? fun r => ?_
    match r with
    | none => exact .ret _
    | some false => exact .ret _
    | some true =>
      refine .read fun t => ?_
      simp only
      split
      · exact .ret _
      · split
        · exact .ret _
        · refine .read fun t => ?_
          split
          · exact .ret _
          · refine .reconfigure fun ok => ?_
            cases ok
            · exact .ret _
            · refine .write (by decide) fun ok => ?_
              cases ok
              · exact .ret _
              · refine .write (by decide) fun ok => ?_
                cases ok
                · exact .ret _
                · refine .remove (by decide) fun ok => ?_
                  cases ok <;> exact .ret _

theorem minVersion_documented (s : String) (v : Nat) : minVersion s = some v ↔ DocumentedTls s v := by
  constructor
  · intro h
    unfold DocumentedTls
    unfold minVersion at h
    split at h
    · next e => subst e; cases h; decide
    · split at h
      · next e => subst e; cases h; decide
      · split at h
        · next e => rcases e with e | e <;> (subst e; cases h; decide)
        · split at h
          · next e => subst e; cases h; decide
          · cases h
  · intro h
    unfold DocumentedTls at h
    simp only [List.mem_cons, Prod.mk.injEq, List.not_mem_nil, or_false] at h
    rcases h with ⟨rfl, rfl⟩ | ⟨rfl, rfl⟩ | ⟨rfl, rfl⟩ | ⟨rfl, rfl⟩ | ⟨rfl, rfl⟩ <;> decide

theorem domain_run {torn : Bool} {y : Yaml} {d d' : Disk} {l dom}
    (h : FRun torn (handleDomain y) d l (.returned (.ok dom)) d') :
    (d.files "failure-domain" = none ∧ dom = 0) ∨ (d.files "failure-domain").bind y.domain = some dom := by
  unfold handleDomain at h
  cases h with
  | existsErr h => rcases (frun_ret h).2.2 with e | e <;> cases e
  | exists? h =>
    simp only at h
    split at h
    · next e => cases e
    · next e =>
      rcases (frun_ret h).2.2 with e' | e'
      · cases e'
      · cases e'; exact .inl ⟨by simpa using e, rfl⟩
    · cases h with
      | readErr h => rcases (frun_ret h).2.2 with e | e <;> cases e
      | read h =>
        simp only at h
        split at h
        · rcases (frun_ret h).2.2 with e | e <;> cases e
        · next c hc =>
          rcases (frun_ret h).2.2 with e | e
          · cases e
          · cases e; exact .inr hc

theorem tuning_run {torn : Bool} {y : Yaml} {d d' : Disk} {l tun}
    (h : FRun torn (handleTuning y) d l (.returned (.ok tun)) d') :
    (d.files "tuning.yaml" = none ∧ tun = none) ∨
    ∃ t, (d.files "tuning.yaml").bind y.tuning = some t ∧ tun = some t := by
  unfold handleTuning at h
  cases h with
  | existsErr h => rcases (frun_ret h).2.2 with e | e <;> cases e
  | exists? h =>
    simp only at h
    split at h
    · next e => cases e
    · next e =>
      rcases (frun_ret h).2.2 with e' | e'
      · cases e'
      · cases e'; exact .inl ⟨by simpa using e, rfl⟩
    · cases h with
      | readErr h => rcases (frun_ret h).2.2 with e | e <;> cases e
      | read h =>
        simp only at h
        split at h
        · rcases (frun_ret h).2.2 with e | e <;> cases e
        · next c hc =>
          rcases (frun_ret h).2.2 with e | e
          · cases e
          · cases e; exact .inr ⟨c, hc, rfl⟩

theorem tls_run {torn : Bool} {a : NewArgs} {d d' : Disk} {l tls}
    (h : FRun torn (handleTls a) d l (.returned (.ok tls)) d') :
    (a.tls = false ∧ tls = none) ∨ (a.tls = true ∧ ∃ v, DocumentedTls a.minTls v ∧ tls = some ⟨a.cache, v⟩) := by
  unfold handleTls at h
  cases ht : a.tls with
  | false =>
    rw [ht] at h
    rcases (frun_ret h).2.2 with e | e
    · cases e
    · cases e; exact .inl ⟨rfl, rfl⟩
  | true =>
    rw [ht] at h
    refine .inr ⟨rfl, ?_⟩
    rw [if_pos rfl] at h
    cases h with
    | loadCerts ok h =>
      cases ok with
      | false => rcases (frun_ret h).2.2 with e | e <;> cases e
      | true =>
        simp only [if_true] at h
        split at h
        · rcases (frun_ret h).2.2 with e | e <;> cases e
        · next v hv =>
          rcases (frun_ret h).2.2 with e | e
          · cases e
          · cases e; exact ⟨v, (minVersion_documented _ _).1 hv, rfl⟩

/-- **C80** (options). Whenever a run of `New` gets as far as starting dqlite (`x` is the call: the options and the
directory at that moment) - and it does so at most once -
* TLS is used if and only if it was asked for, with the documented version for the name given and the session cache of the
  size given,
* disk mode is as asked for,
* the failure domain is the number in the file `failure-domain`, or 0 if there is no such file: a file that cannot be
  read or parsed is never taken for 0,
* the network latency and the snapshot settings are those of `tuning.yaml` (the latter after the documented corrections,
  see C47), or the defaults if there is no such file: a file that cannot be read or parsed is never ignored.

Here the files are those the server was started with. -/
theorem C80_started_as_configured {torn : Bool} (y : Yaml) (a : NewArgs) (d d' : Disk) (l o)
    (h : FRun torn (newServer y a) d l o d') (x : AppOpts × Disk) (hx : x ∈ l) :
    l = [x] ∧
    (x.1.tls = none ↔ a.tls = false) ∧
    (∀ t, x.1.tls = some t → t.cache = a.cache ∧ DocumentedTls a.minTls t.minVersion) ∧
    x.1.diskMode = a.diskMode ∧
    (d.files "failure-domain" = none → x.1.domain = 0) ∧
    (∀ f, d.files "failure-domain" = some f → y.domain f = some x.1.domain) ∧
    (d.files "tuning.yaml" = none → x.1.latency = none ∧ x.1.snapshot = ⟨512, 4096, .dynamic⟩) ∧
    (∀ f, d.files "tuning.yaml" = some f → ∃ t, y.tuning f = some t ∧ x.1.latency = t.latency ∧
      (t.snapshot = none → x.1.snapshot = ⟨512, 4096, .dynamic⟩) ∧
      ∀ s, t.snapshot = some s → x.1.snapshot = adjustSnapshot (some s)) := by
  by_cases hact : ¬ actionOk a.action = true
  · have hb : actionOk a.action = false := by simpa using hact
    unfold newServer at h
    rw [hb] at h
    rw [(frun_ret h).1] at hx
    cases hx
  rw [newServer_eq (not_not.1 hact)] at h
  rcases frun_andThen h with ⟨_, h⟩ | ⟨_, _, h⟩ | ⟨c, l₁, l₂, d₁, h₁, k1, e⟩
  · rw [((within_handleFiles y).run h).1] at hx; cases hx
  · rw [((within_handleFiles y).run h).1] at hx; cases hx
  obtain ⟨e1, keep⟩ := (within_handleFiles y).run h₁
  subst e1
  simp only [List.nil_append] at e
  subst e
  rw [← keep "failure-domain" (by decide), ← keep "tuning.yaml" (by decide)]
  unfold afterFiles at k1
  rcases frun_andThen k1 with ⟨_, h⟩ | ⟨_, _, h⟩ | ⟨dom, m₁, m₂, d₂, g₁, k2, e⟩
  · rw [((handleDomain_readOnly y).run h).1] at hx; cases hx
  · rw [((handleDomain_readOnly y).run h).1] at hx; cases hx
  obtain ⟨e1, e2⟩ := (handleDomain_readOnly y).run g₁
  subst e1 e2
  simp only [List.nil_append] at e
  subst e
  rcases frun_andThen k2 with ⟨_, h⟩ | ⟨_, _, h⟩ | ⟨tls, m₁, m₂, d₃, g₂, k3, e⟩
  · rw [((handleTls_readOnly a).run h).1] at hx; cases hx
  · rw [((handleTls_readOnly a).run h).1] at hx; cases hx
  obtain ⟨e1, e2⟩ := (handleTls_readOnly a).run g₂
  subst e1 e2
  simp only [List.nil_append] at e
  subst e
  rcases frun_andThen k3 with ⟨_, h⟩ | ⟨_, _, h⟩ | ⟨tun, m₁, m₂, d₄, g₃, k4, e⟩
  · rw [((handleTuning_readOnly y).run h).1] at hx; cases hx
  · rw [((handleTuning_readOnly y).run h).1] at hx; cases hx
  obtain ⟨e1, e2⟩ := (handleTuning_readOnly y).run g₃
  subst e1 e2
  simp only [List.nil_append] at e
  subst e
  have hl : l = [x] ∧ x.1 = ⟨c, dom, tls, adjustSnapshot (tun.bind (·.snapshot)), tun.bind (·.latency), a.diskMode⟩ := by
    cases k4 with
    | crash => cases hx
    | appCrash d₁ =>
      rw [List.mem_singleton] at hx; subst hx; exact ⟨rfl, rfl⟩
    | @appNew _ _ _ m _ _ ok d₁ h =>
      have : m = [] := by cases ok <;> exact (frun_ret h).1
      subst this
      rw [List.mem_singleton] at hx; subst hx; exact ⟨rfl, rfl⟩
  obtain ⟨e1, e2⟩ := hl
  rw [e1, e2]
  refine ⟨rfl, ?_, ?_, rfl, ?_, ?_, ?_, ?_⟩
  · rcases tls_run g₂ with ⟨h1, h2⟩ | ⟨h1, v, _, h2⟩ <;> simp [h1, h2]
  · intro t ht
    rcases tls_run g₂ with ⟨_, h2⟩ | ⟨_, v, hv, h2⟩
    · rw [h2] at ht; cases ht
    · rw [h2] at ht; cases ht; exact ⟨rfl, hv⟩
  · intro hn
    rcases domain_run g₁ with ⟨_, h2⟩ | h2
    · exact h2
    · rw [hn] at h2; cases h2
  · intro f hf
    rcases domain_run g₁ with ⟨h1, _⟩ | h2
    · rw [hf] at h1; cases h1
    · rw [hf] at h2; exact h2
  · intro hn
    rcases tuning_run g₃ with ⟨_, h2⟩ | ⟨t, h2, _⟩
    · subst h2; exact ⟨rfl, rfl⟩
    · rw [hn] at h2; cases h2
  · intro f hf
    rcases tuning_run g₃ with ⟨h1, _⟩ | ⟨t, h2, h3⟩
    · rw [hf] at h1; cases h1
    · rw [hf] at h2
      subst h3
      refine ⟨t, h2, rfl, fun hs => ?_, fun s hs => ?_⟩
      · show adjustSnapshot t.snapshot = _
        rw [hs]; rfl
      · show adjustSnapshot t.snapshot = _
        rw [hs]

/-- The hypotheses are met: TLS without a version name, a failure domain and a `tuning.yaml`. -/
example : ∃ opts d₁ d' o, FRun false (newServer demoYaml { demoArgs with tls := true, minTls := "" })
      (dirOf [("tuning.yaml", [3])]) [(opts, d₁)] o d' ∧ opts.tls = some ⟨0, 0x0303⟩ := by
  refine ⟨_, dirOf [("tuning.yaml", [3])], dirOf [], _,
    .exists? (.exists? (.exists? (.loadCerts true (.exists? (.read (.appNew true _ (.ret _ _))))))), rfl⟩

/-- **C80** (intervals). A server that is returned polls and compacts at the intervals of `tuning.yaml`, or every second
and every five minutes; its query timeout and progress interval are the arguments. -/
theorem C80_intervals {torn : Bool} (y : Yaml) (a : NewArgs) (d d' : Disk) (l) (i : Intervals)
    (h : FRun torn (newServer y a) d l (.returned (.ok i)) d') :
    i.queryTimeout = a.queryTimeout ∧ i.notify = a.notify ∧
    (d.files "tuning.yaml" = none → i.poll = 1000000000 ∧ i.compact = 5 * 60 * 1000000000) ∧
    (∀ f, d.files "tuning.yaml" = some f → ∃ t, y.tuning f = some t ∧
      i.poll = t.pollInterval.getD 1000000000 ∧ i.compact = t.compactInterval.getD (5 * 60 * 1000000000)) := by
  by_cases hact : ¬ actionOk a.action = true
  · have hb : actionOk a.action = false := by simpa using hact
    unfold newServer at h
    rw [hb] at h
    rcases (frun_ret h).2.2 with e | e <;> cases e
  rw [newServer_eq (not_not.1 hact)] at h
  rcases frun_andThen h with ⟨ho, _⟩ | ⟨_, ho | ho, _⟩ | ⟨c, l₁, l₂, d₁, h₁, k1, e⟩
  · cases ho
  · cases ho
  · cases ho
  obtain ⟨_, keep⟩ := (within_handleFiles y).run h₁
  rw [← keep "tuning.yaml" (by decide)]
  unfold afterFiles at k1
  rcases frun_andThen k1 with ⟨ho, _⟩ | ⟨_, ho | ho, _⟩ | ⟨dom, m₁, m₂, d₂, g₁, k2, e⟩
  · cases ho
  · cases ho
  · cases ho
  obtain ⟨_, e2⟩ := (handleDomain_readOnly y).run g₁
  subst e2
  rcases frun_andThen k2 with ⟨ho, _⟩ | ⟨_, ho | ho, _⟩ | ⟨tls, m₁, m₂, d₃, g₂, k3, e⟩
  · cases ho
  · cases ho
  · cases ho
  obtain ⟨_, e2⟩ := (handleTls_readOnly a).run g₂
  subst e2
  rcases frun_andThen k3 with ⟨ho, _⟩ | ⟨_, ho | ho, _⟩ | ⟨tun, m₁, m₂, d₄, g₃, k4, e⟩
  · cases ho
  · cases ho
  · cases ho
  have hi : i = intervals a tun := by
    cases k4 with
    | appNew ok d₁ h =>
      cases ok
      · rcases (frun_ret h).2.2 with e | e <;> cases e
      · rcases (frun_ret h).2.2 with e | e
        · cases e
        · cases e; rfl
  subst hi
  refine ⟨rfl, rfl, ?_, ?_⟩
  · intro hn
    rcases tuning_run g₃ with ⟨_, h2⟩ | ⟨t, h2, _⟩
    · subst h2; exact ⟨rfl, rfl⟩
    · rw [hn] at h2; cases h2
  · intro f hf
    rcases tuning_run g₃ with ⟨h1, _⟩ | ⟨t, h2, h3⟩
    · rw [hf] at h1; cases h1
    · rw [hf] at h2
      subst h3
      exact ⟨t, h2, rfl, rfl⟩

end Verif
