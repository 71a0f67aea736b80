import Verif.Model.Errors
import Verif.Lemmas.Run
import Verif.Model.Driver
/-!
# C95 Which errors are retried; C96 The counters
-/

namespace Verif

/-! ## Specification -/

/-- What the innermost error is. -/
def GoErr.root : GoErr → ErrKind
  | .leaf k _ => k
  | .wrap _ e _ => e.root

/-- `sub` occurs in `s`. -/
def Occurs (sub s : Bytes) : Prop := ∃ a b, s = a ++ sub ++ b

/-- The errors that are worth another try, with dqlite: dqlite is busy; or the error is not from dqlite, and SQLite says busy or
locked, or the text says that the database is locked, that there is a transaction already, that the connection is bad, or that
a checkpoint is in progress. -/
def ShouldRetry (e : GoErr) : Prop :=
  e.root = .dqlite 5 ∨
  ((∀ c, e.root ≠ .dqlite c) ∧
    (e.root = .errNo 5 ∨ e.root = .errNo 6 ∨ Occurs txtLocked e.text ∨ Occurs txtNested e.text ∨
      Occurs txtBadConn e.text ∨ Occurs txtCheckpoint e.text))

/-! ## Facts -/

theorem containsBytes_iff {s sub : Bytes} : containsBytes s sub = true ↔ Occurs sub s := by
  induction s with
  | nil =>
    unfold containsBytes
    rw [List.isPrefixOf_iff_prefix]
    constructor
    · rintro ⟨b, h⟩; exact ⟨[], b, by simpa using h.symm⟩
    · rintro ⟨a, b, h⟩
      have : sub = [] := by
        have := h.symm
        simp at this
        exact this.2.1
      exact this ▸ ⟨[], by simp⟩
  | cons c s ih =>
    unfold containsBytes
    rw [Bool.or_eq_true, ih, List.isPrefixOf_iff_prefix]
    constructor
    · rintro (⟨b, h⟩ | ⟨a, b, h⟩)
      · exact ⟨[], b, by simpa using h.symm⟩
      · exact ⟨c :: a, b, by rw [h]; rfl⟩
    · rintro ⟨a, b, h⟩
      cases a with
      | nil => exact .inl ⟨b, by simpa using h.symm⟩
      | cons d a =>
        simp only [List.cons_append, List.cons.injEq] at h
        exact .inr ⟨a, b, h.2⟩

theorem asDqlite_eq {e : GoErr} {c : Int} : e.asDqlite = some c ↔ e.root = .dqlite c := by
  induction e with
  | leaf k t => cases k <;> simp [GoErr.asDqlite, GoErr.root]
  | wrap b e a ih => exact ih

theorem isErrNo_iff {e : GoErr} {n : Int} : e.isErrNo n = true ↔ e.root = .errNo n := by
  induction e with
  | leaf k t => cases k <;> simp [GoErr.isErrNo, GoErr.root]
  | wrap b e a ih => exact ih

/-! ## C95 -/

/-- **C95** With dqlite, exactly these errors are retried, however often they were wrapped. -/
theorem C95_retry (e : GoErr) : dqliteRetry e = true ↔ ShouldRetry e := by
  unfold dqliteRetry ShouldRetry
  cases h : e.asDqlite with
  | some c =>
    have := asDqlite_eq.1 h
    simp only [this]
    refine decide_eq_true_iff.trans ?_
    simp [errBusy]
  | none =>
    have hn : ∀ c, e.root ≠ .dqlite c := fun c hc => by
      rw [asDqlite_eq.2 hc] at h; cases h
    have h5 := hn 5
    have key : ∀ b1 b2 b3 b4 b5 b6 : Bool, ((if b1 || b2 then true else if b3 then true else if b4 then true else if b5 then true
        else if b6 then true else false) = true ↔ b2 = true ∨ b1 = true ∨ b3 = true ∨ b4 = true ∨ b5 = true ∨ b6 = true) := by decide
    refine (key _ _ _ _ _ _).trans ?_
    simp only [isErrNo_iff, containsBytes_iff]
    exact ⟨fun hr => .inr ⟨hn, hr⟩, fun hr => hr.elim (fun hr => (h5 hr).elim) (·.2)⟩

/-- With plain SQLite, exactly the errors with code busy are retried. -/
theorem C95_retry_sqlite (e : GoErr) : sqliteRetry e = true ↔ e.root = .sqlite 5 := by
  have as : ∀ c, e.asSqlite = some c ↔ e.root = .sqlite c := by
    intro c
    induction e with
    | leaf k t => cases k <;> simp [GoErr.asSqlite, GoErr.root]
    | wrap b e a ih => exact ih
  unfold sqliteRetry
  cases h : e.asSqlite with
  | some c =>
    have := (as c).1 h
    simp only [this]
    refine decide_eq_true_iff.trans ?_
    simp [errBusy]
  | none =>
    simp only [Bool.false_eq_true, false_iff]
    intro hc
    rw [(as 5).2 hc] at h; cases h

/-- An occurrence of a text without colon that does not begin with a space is before or after any `": "`. -/
theorem occurs_colon {sub w t : Bytes} (hc : 58 ∉ sub) (hs : sub.head? ≠ some 32) (h : Occurs sub (w ++ [58, 32] ++ t)) :
    Occurs sub w ∨ Occurs sub t := by
  obtain ⟨a, b, h⟩ := h
  have h' : w ++ ([58, 32] ++ t) = a ++ (sub ++ b) := by simpa using h
  rcases List.append_eq_append_iff.1 h' with ⟨x, h1, h2⟩ | ⟨x, h1, h2⟩
  · -- `a = w ++ x`, `": " ++ t = x ++ sub ++ b`
    right
    cases x with
    | nil =>
      cases sub with
      | nil => exact ⟨[], t, by simp⟩
      | cons c sub =>
        simp only [List.nil_append, List.cons_append, List.cons.injEq] at h2
        exact (hc (by rw [← h2.1]; simp)).elim
    | cons c x =>
      simp only [List.cons_append, List.nil_append, List.cons.injEq] at h2
      obtain ⟨_, h2⟩ := h2
      cases x with
      | nil =>
        cases sub with
        | nil => exact ⟨[], t, by simp⟩
        | cons c sub =>
          simp only [List.nil_append, List.cons_append, List.cons.injEq] at h2
          exact (hs (by rw [← h2.1]; rfl)).elim
      | cons d x =>
        simp only [List.cons_append, List.cons.injEq] at h2
        exact ⟨x, b, by simpa using h2.2⟩
  · -- `w = a ++ x`, `sub ++ b = x ++ ": " ++ t`
    rcases List.append_eq_append_iff.1 h2 with ⟨y, h3, h4⟩ | ⟨y, h3, h4⟩
    · exact .inl ⟨a, y, by rw [h1, h3]; simp⟩
    · cases y with
      | nil => exact .inl ⟨a, [], by rw [h1, h3]; simp⟩
      | cons c y =>
        simp only [List.cons_append, List.nil_append, List.cons.injEq] at h4
        exact (hc (by rw [h3, ← h4.1]; simp)).elim

/-- Cancellations and exceeded deadlines are told by what is at the root of the error, and an error is taken for busy if it is
retried, else for what it is at its root. -/
theorem C95_kinds (retry : GoErr → Bool) (e : GoErr) :
    (e.isCanceled = true ↔ e.root = .canceled) ∧ (e.isDeadline = true ↔ e.root = .deadline) ∧
    (classify retry e = .busy ↔ retry e = true) ∧
    (classify retry e = .canceled ↔ retry e = false ∧ e.root = .canceled) ∧
    (classify retry e = .deadline ↔ retry e = false ∧ e.root = .deadline) := by
  have h1 : e.isCanceled = true ↔ e.root = .canceled := by
    induction e with
    | leaf k t => simp [GoErr.isCanceled, GoErr.root]
    | wrap a e b ih => exact ih
  have h2 : e.isDeadline = true ↔ e.root = .deadline := by
    clear h1
    induction e with
    | leaf k t => simp [GoErr.isDeadline, GoErr.root]
    | wrap a e b ih => exact ih
  have h3 : e.isCanceled = true → e.isDeadline = false := by
    intro hc
    cases hd : e.isDeadline with
    | false => rfl
    | true => rw [h2] at hd; rw [h1, hd] at hc; cases hc
  rw [← h1, ← h2]
  refine ⟨Iff.rfl, Iff.rfl, ?_, ?_, ?_⟩ <;> unfold classify <;> cases hr : retry e <;>
    cases hc : e.isCanceled <;> cases hd : e.isDeadline <;> simp
  exact absurd (h3 hc) (by simp [hd])

/-- One of each. -/
example : classify dqliteRetry (.wrap [1] (.leaf .canceled [2]) []) = .canceled ∧
    classify dqliteRetry (.leaf .deadline []) = .deadline ∧ classify dqliteRetry (.leaf (.dqlite 5) []) = .busy := by decide

/-- Wrapping an error does not change whether it is retried, nor whether it is a cancellation or an exceeded deadline, as long
as what is written before it, up to a `": "`, does not contain one of the texts; like `query (try: 3): `. -/
theorem C95_wrapping (e : GoErr) (w : Bytes)
    (hw : ∀ s ∈ [txtLocked, txtNested, txtBadConn, txtCheckpoint], ¬ Occurs s w) :
    let e' := GoErr.wrap (w ++ [58, 32]) e []
    (dqliteRetry e' = dqliteRetry e ∧ sqliteRetry e' = sqliteRetry e) ∧
    e'.isCanceled = e.isCanceled ∧ e'.isDeadline = e.isDeadline ∧
    classify dqliteRetry e' = classify dqliteRetry e := by
  have occ : ∀ s ∈ [txtLocked, txtNested, txtBadConn, txtCheckpoint],
      (Occurs s (GoErr.wrap (w ++ [58, 32]) e []).text ↔ Occurs s e.text) := by
    intro s hs
    have hp : 58 ∉ s ∧ s.head? ≠ some 32 := by
      have : ∀ s ∈ [txtLocked, txtNested, txtBadConn, txtCheckpoint], 58 ∉ s ∧ s.head? ≠ some 32 := by decide
      exact this s hs
    simp only [GoErr.text, List.append_nil]
    constructor
    · intro h
      rcases occurs_colon hp.1 hp.2 h with h | h
      · exact (hw s hs h).elim
      · exact h
    · rintro ⟨a, b, h⟩
      exact ⟨w ++ [58, 32] ++ a, b, by rw [h]; simp⟩
  have hd : dqliteRetry (GoErr.wrap (w ++ [58, 32]) e []) = dqliteRetry e := by
    rw [Bool.eq_iff_iff, C95_retry, C95_retry]
    unfold ShouldRetry
    rw [occ txtLocked (by simp), occ txtNested (by simp), occ txtBadConn (by simp), occ txtCheckpoint (by simp)]
    exact Iff.rfl
  refine ⟨⟨hd, ?_⟩, rfl, rfl, ?_⟩
  · rw [Bool.eq_iff_iff, C95_retry_sqlite, C95_retry_sqlite]; exact Iff.rfl
  · unfold classify; rw [hd]; rfl

/-- **C95** (the texts are not looked at in errors of dqlite). An error of dqlite that says "cannot start a transaction within
a transaction" (code 1, `SQLITE_ERROR`), or that the database is locked (code 6), is not retried, although the code means to. -/
theorem C95_text_ignored_counterexample :
    (∃ e : GoErr, e.root = .dqlite 1 ∧ Occurs txtNested e.text ∧ dqliteRetry e = false) ∧
    (∃ e : GoErr, e.root = .dqlite 6 ∧ Occurs txtLocked e.text ∧ dqliteRetry e = false) ∧
    ∃ e : GoErr, e.root = .sqlite 6 ∧ dqliteRetry e = false :=
  ⟨⟨.leaf (.dqlite 1) txtNested, rfl, ⟨[], [], by simp [GoErr.text]⟩, by decide⟩,
   ⟨.leaf (.dqlite 6) txtLocked, rfl, ⟨[], [], by simp [GoErr.text]⟩, by decide⟩,
   ⟨.leaf (.sqlite 6) [], rfl, by decide⟩⟩

/-! ## The loop -/

theorem attemptLoop_spec {retry : GoErr → Bool} {ans : Nat → Option GoErr} {n i : Nat} {last : Option GoErr} :
    let r := attemptLoop retry ans n i last
    i ≤ r.1 ∧ r.1 ≤ i + n ∧ (∀ j, i ≤ j → j < r.1 → ∃ e, ans j = some e ∧ retry e = true) ∧
    (r.1 < i + n → r.2 = ans r.1 ∧ ∀ e, ans r.1 = some e → retry e = false) ∧
    (r.1 = i + n → r.2 = if n = 0 then last else ans (r.1 - 1)) := by
  induction n generalizing i last with
  | zero => exact ⟨Nat.le_refl _, Nat.le_refl _, fun j h1 h2 => by simp [attemptLoop] at h2; omega, by simp [attemptLoop], by simp [attemptLoop]⟩
  | succ n ih =>
    unfold attemptLoop
    cases ha : ans i with
    | none =>
      simp only
      refine ⟨Nat.le_refl _, by omega, fun j h1 h2 => by omega, fun _ => ⟨ha.symm, by simp [ha]⟩, fun h => by omega⟩
    | some e =>
      simp only
      cases hr : retry e with
      | false =>
        simp only [Bool.not_false, if_true]
        exact ⟨Nat.le_refl _, by omega, fun j h1 h2 => by omega,
          fun _ => ⟨ha.symm, fun e' h => by rw [ha] at h; cases h; exact hr⟩, fun h => by omega⟩
      | true =>
        simp only [Bool.not_true, Bool.false_eq_true, if_false]
        obtain ⟨h1, h2, h3, h4, h5⟩ := ih (i := i + 1) (last := some e)
        refine ⟨by omega, by omega, fun j g1 g2 => ?_, fun g => h4 (by omega), fun g => ?_⟩
        · by_cases hj : j = i
          · subst hj; exact ⟨e, ha, hr⟩
          · exact h3 j (by omega) g2
        · rw [h5 (by omega)]
          by_cases hn : n = 0
          · subst hn
            simp only [attemptLoop]
            simp [ha]
          · simp [hn]

/-- **C95** (the attempts). The database is asked again exactly after errors that are retried, at most 500 times; the answer of
the last attempt is the answer of the operation. -/
theorem C95_attempts (retry : GoErr → Bool) (pre : Nat → Bytes) (name : String) (ans : Nat → Option GoErr) :
    let r := driverOp retry pre name ans
    ∃ k, 1 ≤ k ∧ k ≤ 500 ∧ (∀ j, j + 1 < k → ∃ e, ans j = some e ∧ retry e = true) ∧
      (k < 500 → ∀ e, ans (k - 1) = some e → retry e = false) ∧
      r.err = (ans (k - 1)).map fun e => .wrap (pre r.retryCount) e [] := by
  obtain ⟨h1, h2, h3, h4, h5⟩ := attemptLoop_spec (retry := retry) (ans := ans) (n := maxRetries) (i := 0) (last := none)
  simp only [driverOp]
  generalize attemptLoop retry ans maxRetries 0 none = r at *
  have hm : maxRetries = 500 := rfl
  rw [hm] at h2 h4 h5
  by_cases hlt : r.1 < 500
  · obtain ⟨g1, g2⟩ := h4 (by omega)
    refine ⟨r.1 + 1, by omega, by omega, fun j hj => h3 j (by omega) (by omega), fun _ => g2, ?_⟩
    rw [g1]; rfl
  · have he : r.1 = 500 := by omega
    have g := h5 (by omega)
    rw [if_neg (by omega)] at g
    refine ⟨500, by omega, by omega, fun j hj => h3 j (by omega) (by omega), fun h => by omega, ?_⟩
    rw [g, he]

/-! ## The link to `Verif.Model.Prog` -/

/-- What the statement of attempt `i` does, as `Verif.Model.Prog` sees it; whether a failed one took effect is up to the
environment. -/
def OutcomeOf (retry : GoErr → Bool) : Option GoErr → Outcome → Prop
  | none, o => o = .ok ∨ ∃ n, o = .trunc n
  | some e, o => o = .fail (classify retry e) ∨ o = .lost (classify retry e)

theorem classify_retry {retry : GoErr → Bool} {e : GoErr} : (classify retry e).retry = retry e := by
  unfold classify
  cases h : retry e with
  | true => rfl
  | false =>
    simp only [Bool.false_eq_true, if_false]
    split
    · rfl
    · split <;> rfl

theorem executeLoop_refines {retry : GoErr → Bool} {st : DB → DB × ExecResult} {ans : Nat → Option GoErr} {n i : Nat}
    {last : Option GoErr} {t : List Obs} {a : Except ApiErr ExecResult} (h : Path (executeLoop st n) t a)
    (hl : ∀ e, last = some e → retry e = true) (hl' : n = 0 → last ≠ none)
    (ho : ∀ j x, t[j]? = some x → OutcomeOf retry (ans (i + j)) x.out) :
    let r := attemptLoop retry ans n i last
    (r.2 = none → ∃ v, a = .ok v) ∧ ∀ e, r.2 = some e → a = .error (.db (classify retry e)) := by
  induction n generalizing i last t with
  | zero =>
    obtain ⟨rfl, rfl⟩ := path_ret h
    simp only [attemptLoop]
    refine ⟨fun hn => (hl' rfl hn).elim, fun e he => ?_⟩
    unfold classify
    rw [hl e he]; rfl
  | succ n ih =>
    unfold executeLoop at h
    cases h with
    | step w o h =>
      have h0 := ho 0 _ rfl
      rw [Nat.add_zero] at h0
      simp only at h0
      unfold attemptLoop
      cases ha : ans i with
      | none =>
        rw [ha] at h0
        simp only
        rcases h0 with rfl | ⟨m, rfl⟩ <;> · obtain ⟨_, rfl⟩ := path_ret h; exact ⟨fun _ => ⟨_, rfl⟩, nofun⟩
      | some e =>
        rw [ha] at h0
        simp only
        have next : retry e = true → ∀ {t'}, Path (executeLoop st n) t' a →
            (∀ j x, t'[j]? = some x → OutcomeOf retry (ans (i + 1 + j)) x.out) →
            ((attemptLoop retry ans n (i + 1) (some e)).2 = none → ∃ v, a = .ok v) ∧
            ∀ e', (attemptLoop retry ans n (i + 1) (some e)).2 = some e' → a = .error (.db (classify retry e')) := by
          intro hr t' hp ho'
          exact ih (i := i + 1) (last := some e) hp (fun e' he' => by cases he'; exact hr) (fun _ => nofun) ho'
        have tail : ∀ {x : Obs} {t' : List Obs}, (∀ j y, (x :: t')[j]? = some y → OutcomeOf retry (ans (i + j)) y.out) →
            ∀ j y, t'[j]? = some y → OutcomeOf retry (ans (i + 1 + j)) y.out := by
          intro x t' hh j y hy
          have := hh (j + 1) y (by simpa using hy)
          rw [show i + 1 + j = i + (j + 1) by omega]
          exact this
        cases hr : retry e with
        | false =>
          simp only [Bool.not_false, if_true]
          have hc : (classify retry e).retry = false := by rw [classify_retry, hr]
          rcases h0 with rfl | rfl <;>
          · simp only [hc, Bool.false_eq_true, if_false] at h
            obtain ⟨_, rfl⟩ := path_ret h
            exact ⟨nofun, fun e' he' => by cases he'; rfl⟩
        | true =>
          simp only [Bool.not_true, Bool.false_eq_true, if_false]
          have hc : (classify retry e).retry = true := by rw [classify_retry, hr]
          rcases h0 with rfl | rfl <;>
          · simp only [hc, if_true] at h
            exact next hr h (tail ho)

theorem queryLoop_refines {retry : GoErr → Bool} {β : Type} {sel : DB → β} {ans : Nat → Option GoErr} {n i : Nat}
    {last : Option GoErr} {t : List Obs} {a : Except ApiErr (β × Option Nat)} (h : Path (queryLoop sel n) t a)
    (hl : ∀ e, last = some e → retry e = true) (hl' : n = 0 → last ≠ none)
    (ho : ∀ j x, t[j]? = some x → OutcomeOf retry (ans (i + j)) x.out) :
    let r := attemptLoop retry ans n i last
    (r.2 = none → ∃ v, a = .ok v) ∧ ∀ e, r.2 = some e → a = .error (.db (classify retry e)) := by
  induction n generalizing i last t with
  | zero =>
    obtain ⟨rfl, rfl⟩ := path_ret h
    simp only [attemptLoop]
    refine ⟨fun hn => (hl' rfl hn).elim, fun e he => ?_⟩
    unfold classify
    rw [hl e he]; rfl
  | succ n ih =>
    unfold queryLoop at h
    cases h with
    | step w o h =>
      have h0 := ho 0 _ rfl
      rw [Nat.add_zero] at h0
      simp only at h0
      unfold attemptLoop
      cases ha : ans i with
      | none =>
        rw [ha] at h0
        simp only
        rcases h0 with rfl | ⟨m, rfl⟩ <;> · obtain ⟨_, rfl⟩ := path_ret h; exact ⟨fun _ => ⟨_, rfl⟩, nofun⟩
      | some e =>
        rw [ha] at h0
        simp only
        have next : retry e = true → ∀ {t'}, Path (queryLoop sel n) t' a →
            (∀ j x, t'[j]? = some x → OutcomeOf retry (ans (i + 1 + j)) x.out) →
            ((attemptLoop retry ans n (i + 1) (some e)).2 = none → ∃ v, a = .ok v) ∧
            ∀ e', (attemptLoop retry ans n (i + 1) (some e)).2 = some e' → a = .error (.db (classify retry e')) := by
          intro hr t' hp ho'
          exact ih (i := i + 1) (last := some e) hp (fun e' he' => by cases he'; exact hr) (fun _ => nofun) ho'
        have tail : ∀ {x : Obs} {t' : List Obs}, (∀ j y, (x :: t')[j]? = some y → OutcomeOf retry (ans (i + j)) y.out) →
            ∀ j y, t'[j]? = some y → OutcomeOf retry (ans (i + 1 + j)) y.out := by
          intro x t' hh j y hy
          have := hh (j + 1) y (by simpa using hy)
          rw [show i + 1 + j = i + (j + 1) by omega]
          exact this
        cases hr : retry e with
        | false =>
          simp only [Bool.not_false, if_true]
          have hc : (classify retry e).retry = false := by rw [classify_retry, hr]
          rcases h0 with rfl | rfl <;>
          · simp only [hc, Bool.false_eq_true, if_false] at h
            obtain ⟨_, rfl⟩ := path_ret h
            exact ⟨nofun, fun e' he' => by cases he'; rfl⟩
        | true =>
          simp only [Bool.not_true, Bool.false_eq_true, if_false]
          have hc : (classify retry e).retry = true := by rw [classify_retry, hr]
          rcases h0 with rfl | rfl <;>
          · simp only [hc, if_true] at h
            exact next hr h (tail ho)

theorem compactLoop_refines {retry : GoErr → Bool} {start stop : Int} {ans : Nat → Option GoErr} {n i : Nat}
    {last : Option GoErr} {t : List Obs} {a : Except ApiErr Unit} (h : Path (compactLoop start stop n) t a)
    (hl : ∀ e, last = some e → retry e = true) (hl' : n = 0 → last ≠ none)
    (ho : ∀ j x, t[j]? = some x → OutcomeOf retry (ans (i + j)) x.out) :
    let r := attemptLoop retry ans n i last
    (r.2 = none → ∃ v, a = .ok v) ∧ ∀ e, r.2 = some e → a = .error (.db (classify retry e)) := by
  induction n generalizing i last t with
  | zero =>
    obtain ⟨rfl, rfl⟩ := path_ret h
    simp only [attemptLoop]
    refine ⟨fun hn => (hl' rfl hn).elim, fun e he => ?_⟩
    unfold classify
    rw [hl e he]; rfl
  | succ n ih =>
    unfold compactLoop at h
    cases h with
    | step w o h =>
      have h0 := ho 0 _ rfl
      rw [Nat.add_zero] at h0
      simp only at h0
      unfold attemptLoop
      cases ha : ans i with
      | none =>
        rw [ha] at h0
        simp only
        rcases h0 with rfl | ⟨m, rfl⟩ <;> · obtain ⟨_, rfl⟩ := path_ret h; exact ⟨fun _ => ⟨_, rfl⟩, nofun⟩
      | some e =>
        rw [ha] at h0
        simp only
        have next : retry e = true → ∀ {t'}, Path (compactLoop start stop n) t' a →
            (∀ j x, t'[j]? = some x → OutcomeOf retry (ans (i + 1 + j)) x.out) →
            ((attemptLoop retry ans n (i + 1) (some e)).2 = none → ∃ v, a = .ok v) ∧
            ∀ e', (attemptLoop retry ans n (i + 1) (some e)).2 = some e' → a = .error (.db (classify retry e')) := by
          intro hr t' hp ho'
          exact ih (i := i + 1) (last := some e) hp (fun e' he' => by cases he'; exact hr) (fun _ => nofun) ho'
        have tail : ∀ {x : Obs} {t' : List Obs}, (∀ j y, (x :: t')[j]? = some y → OutcomeOf retry (ans (i + j)) y.out) →
            ∀ j y, t'[j]? = some y → OutcomeOf retry (ans (i + 1 + j)) y.out := by
          intro x t' hh j y hy
          have := hh (j + 1) y (by simpa using hy)
          rw [show i + 1 + j = i + (j + 1) by omega]
          exact this
        cases hr : retry e with
        | false =>
          simp only [Bool.not_false, if_true]
          have hc : (classify retry e).retry = false := by rw [classify_retry, hr]
          rcases h0 with rfl | rfl <;>
          · simp only [hc, Bool.false_eq_true, if_false] at h
            obtain ⟨_, rfl⟩ := path_ret h
            exact ⟨nofun, fun e' he' => by cases he'; rfl⟩
        | true =>
          simp only [Bool.not_true, Bool.false_eq_true, if_false]
          have hc : (classify retry e).retry = true := by rw [classify_retry, hr]
          rcases h0 with rfl | rfl <;>
          · simp only [hc, if_true] at h
            exact next hr h (tail ho)

/-- **C95** (the abstraction is faithful). Whatever errors the database answers with, the operation as modelled everywhere
else ends like the real one: with success if that succeeds, and otherwise with the class of its error. -/
theorem C95_abstraction {retry : GoErr → Bool} {pre : Nat → Bytes} {name : String} {ans : Nat → Option GoErr} {t : List Obs}
    (ho : ∀ j x, t[j]? = some x → OutcomeOf retry (ans j) x.out) :
    let r := driverOp retry pre name ans
    (∀ (st : DB → DB × ExecResult) (a : Except ApiErr ExecResult), Path (execute st) t a →
      (r.err = none → ∃ v, a = .ok v) ∧
      ∀ e, r.err = some (.wrap (pre r.retryCount) e []) → a = .error (.db (classify retry e))) ∧
    ∀ (β : Type) (sel : DB → β) (a : Except ApiErr (β × Option Nat)), Path (query sel) t a →
      (r.err = none → ∃ v, a = .ok v) ∧
      ∀ e, r.err = some (.wrap (pre r.retryCount) e []) → a = .error (.db (classify retry e)) := by
  have ho' : ∀ j x, t[j]? = some x → OutcomeOf retry (ans (0 + j)) x.out := by
    intro j x hx
    rw [Nat.zero_add]
    exact ho j x hx
  have conv : ∀ {α : Type} {a : Except ApiErr α} {r : Nat × Option GoErr},
      ((r.2 = none → ∃ v, a = .ok v) ∧ ∀ e, r.2 = some e → a = .error (.db (classify retry e))) →
      (((r.2.map fun e => GoErr.wrap (pre r.1) e []) = none → ∃ v, a = .ok v) ∧
      ∀ e, (r.2.map fun e => GoErr.wrap (pre r.1) e []) = some (.wrap (pre r.1) e []) → a = .error (.db (classify retry e))) := by
    rintro α a ⟨k, o⟩ ⟨h1, h2⟩
    cases o with
    | none => exact ⟨fun _ => h1 rfl, nofun⟩
    | some e0 => exact ⟨nofun, fun e he => by simp at he; exact h2 e (by rw [he])⟩
  exact ⟨fun st a hp => conv (executeLoop_refines hp nofun nofun ho'), fun β sel a hp => conv (queryLoop_refines hp nofun nofun ho')⟩

/-- The same for the compaction transactions. -/
theorem C95_abstraction_compact {retry : GoErr → Bool} {ans : Nat → Option GoErr} {t : List Obs} {start stop : Int}
    {a : Except ApiErr Unit} (ho : ∀ j x, t[j]? = some x → OutcomeOf retry (ans j) x.out)
    (hp : Path (compactLoop start stop maxRetries) t a) :
    ((tryCompactOp retry ans).err = none → a = .ok ()) ∧
    ∀ e, (tryCompactOp retry ans).err = some e → a = .error (.db (classify retry e)) := by
  have ho' : ∀ j x, t[j]? = some x → OutcomeOf retry (ans (0 + j)) x.out := by
    intro j x hx
    rw [Nat.zero_add]
    exact ho j x hx
  obtain ⟨h1, h2⟩ := compactLoop_refines (last := none) hp nofun nofun ho'
  exact ⟨fun h => (h1 h).elim fun _ h => h, h2⟩

/-! ## C96 The counters -/

/-- How often a counter was increased with this name and result. -/
def OpReport.count (r : OpReport) (c : Counter) (name : String) (success : Bool) : Nat :=
  (r.counts.filter fun x => decide (x = ⟨c, name, success⟩)).length

/-- Specification: the operation counted itself once in both counters, with the right result, and nothing else. -/
def CountedOnce (name : String) (r : OpReport) : Prop :=
  ∀ c n s, r.count c n s = if n = name ∧ s = r.err.isNone then 1 else 0

/-- **C96** (what does hold). Every statement counts itself once as one operation and one transaction, however often it was tried,
as success exactly if it returns no error. -/
theorem C96_counted_partial (retry : GoErr → Bool) (pre : Nat → Bytes) (name : String) (ans : Nat → Option GoErr) :
    CountedOnce name (driverOp retry pre name ans) := by
  intro c n s
  unfold driverOp
  generalize attemptLoop retry ans maxRetries 0 none = r
  obtain ⟨k, o⟩ := r
  simp only [OpReport.count, resultLabel]
  cases c <;> cases s <;> cases o <;> by_cases hn : n = name <;> simp [hn, eq_comm, Count1.mk.injEq] <;> simp [Ne.symm hn]

/-- **C96** (the English property does not hold). Reading the compact revision counts every time twice, even when it succeeds at the first
attempt; when the row cannot be read it fails, but counts two successes and no failure; the same, once, for the other queries of one
row. Compactions do not count at all, and neither do the attempts that were retried. -/
theorem C96_counters_counterexample (pre : Nat → Bytes) (e : GoErr) :
    (∀ row, (getCompactRevisionOp dqliteRetry pre (fun _ => none) row).count .op "revision_interval_sql" true = 2) ∧
    ((getCompactRevisionOp dqliteRetry pre (fun _ => none) (some e)).err = some e ∧
      ∀ c n, (getCompactRevisionOp dqliteRetry pre (fun _ => none) (some e)).count c n false = 0) ∧
    (∀ name, (oneRowOp dqliteRetry pre name (fun _ => none) (some e)).err = some e ∧
      (oneRowOp dqliteRetry pre name (fun _ => none) (some e)).count .op name true = 1) ∧
    (∀ ans, (tryCompactOp dqliteRetry ans).counts = []) ∧
    ∃ ans, (driverOp dqliteRetry pre "create_sql" ans).retryCount = 1 ∧
      (driverOp dqliteRetry pre "create_sql" ans).count .tx "create_sql" false = 0 := by
  refine ⟨fun row => by cases row <;> rfl, ⟨rfl, fun c n => ?_⟩, fun name => ⟨rfl, ?_⟩, fun _ => rfl,
    ⟨fun i => if i = 0 then some (.leaf (.dqlite 5) []) else none, rfl, rfl⟩⟩
  · simp [getCompactRevisionOp, driverOp, attemptLoop, maxRetries, OpReport.count, resultLabel]
  · simp [oneRowOp, driverOp, attemptLoop, maxRetries, OpReport.count, resultLabel]

/-- Errors that are retried, one that is not, and an operation that succeeds at the third attempt. -/
example : dqliteRetry (.wrap [113, 58, 32] (.leaf .plain ([120] ++ txtBadConn)) []) = true ∧
    dqliteRetry (.leaf .canceled [99]) = false ∧
    (driverOp dqliteRetry (fun _ => []) "x" fun i => if i < 2 then some (.leaf (.errNo 6) []) else none).retryCount = 2 := by
  decide

end Verif
