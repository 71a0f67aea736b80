import Verif.Lemmas.Rely
/-!
# Facts about runs of an observed call inside the system
-/

namespace Verif

/-- Invariant of the whole system. -/
structure SysInv (s : Sys) : Prop where
  inv : Inv s.world
  safe : ∀ p ∈ s.pool, Safe p s.world

theorem SysInv.init : SysInv Sys.init := ⟨Inv.init, by simp [Sys.init]⟩

theorem SysInv.step {s s' : Sys} (h : SysInv s) (st : Step s s') :
    SysInv s' ∧ Ext s.world s'.world := by
  cases st with
  | spawn _ c ok =>
    refine ⟨⟨h.inv, ?_⟩, Ext.refl h.inv⟩
    intro p hp
    rcases List.mem_cons.1 hp with rfl | hp
    · exact safe_call h.inv c ok
    · exact h.safe p hp
  | exec w pre post eff k o =>
    have hs := h.safe (.stmt eff k) (by simp)
    obtain ⟨h1, h2⟩ := hs w (Ext.refl h.inv) o
    refine ⟨⟨h1.inv, ?_⟩, h1⟩
    intro p hp
    simp only [List.mem_append, List.mem_cons] at hp
    rcases hp with hp | rfl | hp
    · exact safe_ext h1 (h.safe p (by simp [hp]))
    · exact h2
    · exact safe_ext h1 (h.safe p (by simp [hp]))
  | stop w pre post p =>
    refine ⟨⟨h.inv, ?_⟩, Ext.refl h.inv⟩
    intro q hq
    apply h.safe q
    simp only [List.mem_append, List.mem_cons] at hq ⊢
    rcases hq with hq | hq
    · exact Or.inl hq
    · exact Or.inr (Or.inr hq)

theorem SysInv.steps {s s' : Sys} (h : SysInv s) (st : Steps s s') :
    SysInv s' ∧ Ext s.world s'.world := by
  induction st with
  | refl => exact ⟨h, Ext.refl h.inv⟩
  | tail _ st ih =>
    obtain ⟨h1, h2⟩ := ih
    obtain ⟨h3, h4⟩ := h1.step st
    exact ⟨h3, h2.trans h4⟩

theorem Reachable.sysInv {s : Sys} (h : Reachable s) : SysInv s := (SysInv.init.steps h).1

theorem Reachable.inv {s : Sys} (h : Reachable s) : Inv s.world := h.sysInv.inv

theorem Steps.trans {a b c : Sys} (h₁ : Steps a b) (h₂ : Steps b c) : Steps a c := by
  induction h₂ with
  | refl => exact h₁
  | tail _ st ih => exact ih.tail st

/-- A path through a program: the statements executed, ignoring the environment. -/
inductive Path {α : Type} : Prog α → List Obs → α → Prop where
  | ret (a : α) : Path (.ret a) [] a
  | step {eff : DB → DB} {k : Outcome → DB → Prog α} {t : List Obs} {a : α} (w : World) (o : Outcome) :
      Path (k o w.db) t a → Path (.stmt eff k) (⟨w, o, w.exec eff o⟩ :: t) a

/-- Everything known about the statements executed by an observed call. -/
structure Facts (w : World) (t : List Obs) (w' : World) : Prop where
  pre : ∀ ob ∈ t, Ext w ob.pre
  step : ∀ ob ∈ t, Ext ob.pre ob.post
  post : ∀ ob ∈ t, Ext ob.post w'
  chain : t.Pairwise fun a b => Ext a.post b.pre
  total : Ext w w'

theorem Facts.nil {w : World} (i : Inv w) : Facts w [] w :=
  ⟨by simp, by simp, by simp, List.Pairwise.nil, Ext.refl i⟩

theorem run_facts {α : Type} {s s' : Sys} {p : Prog α} {t : List Obs} {a : α} (r : Run s p t a s')
    (h : SysInv s) (hp : Safe p s.world) :
    Path p t a ∧ Facts s.world t s'.world ∧ SysInv s' := by
  induction r with
  | ret s a => exact ⟨.ret a, Facts.nil h.inv, h⟩
  | env st _ ih =>
    obtain ⟨h1, h2⟩ := h.step st
    obtain ⟨a1, a2, a3⟩ := ih h1 (safe_ext h2 hp)
    refine ⟨a1, ⟨fun ob hob => h2.trans (a2.pre ob hob), a2.step, a2.post, a2.chain,
      h2.trans a2.total⟩, a3⟩
  | @step s s'' eff k t a o _ ih =>
    obtain ⟨h1, h2⟩ := hp s.world (Ext.refl h.inv) o
    have hinv : SysInv { s with world := s.world.exec eff o } :=
      ⟨h1.inv, fun q hq => safe_ext h1 (h.safe q hq)⟩
    obtain ⟨a1, a2, a3⟩ := ih hinv h2
    refine ⟨.step s.world o a1, ⟨?_, ?_, ?_, ?_, h1.trans a2.total⟩, a3⟩
    · intro ob hob
      rcases List.mem_cons.1 hob with rfl | hob
      · exact Ext.refl h.inv
      · exact h1.trans (a2.pre ob hob)
    · intro ob hob
      rcases List.mem_cons.1 hob with rfl | hob
      · exact h1
      · exact a2.step ob hob
    · intro ob hob
      rcases List.mem_cons.1 hob with rfl | hob
      · exact a2.total
      · exact a2.post ob hob
    · rw [List.pairwise_cons]
      exact ⟨fun b hb => a2.pre b hb, a2.chain⟩

theorem Facts.left {w w' : World} {t u : List Obs} (f : Facts w (t ++ u) w') :
    (∀ ob ∈ t, Ext w ob.pre ∧ Ext ob.pre ob.post ∧ Ext ob.post w') :=
  fun ob h => ⟨f.pre ob (by simp [h]), f.step ob (by simp [h]), f.post ob (by simp [h])⟩

/-! ## Inverting paths -/

theorem path_ret {α : Type} {a b : α} {t : List Obs} (h : Path (.ret a) t b) : t = [] ∧ b = a := by
  cases h; exact ⟨rfl, rfl⟩

theorem path_bind {α β : Type} {p : Prog α} {f : α → Prog β} {t : List Obs} {b : β}
    (h : Path (p.bind f) t b) : ∃ t₁ t₂ a, t = t₁ ++ t₂ ∧ Path p t₁ a ∧ Path (f a) t₂ b := by
  induction p generalizing t with
  | ret a => exact ⟨[], t, a, rfl, .ret a, h⟩
  | stmt eff k ih =>
    cases h with
    | step w o h' =>
      obtain ⟨t₁, t₂, a, rfl, h1, h2⟩ := ih o w.db h'
      exact ⟨_ :: t₁, t₂, a, rfl, .step w o h1, h2⟩

theorem path_andThen {ε α β : Type} {p : Prog (Except ε α)} {f : α → Prog (Except ε β)}
    {t : List Obs} {b : Except ε β} (h : Path (p.andThen f) t b) :
    (∃ t₁ t₂ a, t = t₁ ++ t₂ ∧ Path p t₁ (.ok a) ∧ Path (f a) t₂ b) ∨
    (∃ e, b = .error e ∧ Path p t (.error e)) := by
  obtain ⟨t₁, t₂, a, rfl, h1, h2⟩ := path_bind h
  cases a with
  | ok a => exact Or.inl ⟨t₁, t₂, a, rfl, h1, h2⟩
  | error e =>
    right
    obtain ⟨rfl, rfl⟩ := path_ret h2
    exact ⟨e, rfl, by simpa using h1⟩

theorem path_andThen_ok {ε α β : Type} {p : Prog (Except ε α)} {f : α → Prog (Except ε β)}
    {t : List Obs} {b : β} (h : Path (p.andThen f) t (.ok b)) :
    ∃ t₁ t₂ a, t = t₁ ++ t₂ ∧ Path p t₁ (.ok a) ∧ Path (f a) t₂ (.ok b) := by
  rcases path_andThen h with h | ⟨e, he, _⟩
  · exact h
  · cases he

theorem path_map {α β : Type} {p : Prog α} {f : α → β} {t : List Obs} {b : β}
    (h : Path (p.map f) t b) : ∃ a, b = f a ∧ Path p t a := by
  obtain ⟨t₁, t₂, a, rfl, h1, h2⟩ := path_bind h
  obtain ⟨rfl, rfl⟩ := path_ret h2
  exact ⟨a, rfl, by simpa using h1⟩

/-- A statement attempt that ends in a retryable error. -/
def Obs.retried (ob : Obs) : Prop := ob.out = .fail .busy ∨ ob.out = .lost .busy

/-- Query attempts do not change anything. -/
def Obs.isQuery (ob : Obs) : Prop := ob.post = ob.pre.exec id ob.out

theorem retry_busy {e : DbErr} (h : e.retry = true) : e = .busy := by
  cases e <;> simp [DbErr.retry] at h ⊢

/-- What a successful query with at most `n` attempts looks like. -/
def QueryOk {β : Type} (sel : DB → β) (n : Nat) (t : List Obs) (r : β × Option Nat) : Prop :=
  ∃ u ob, t = u ++ [ob] ∧ (∀ x ∈ t, x.isQuery) ∧ (∀ x ∈ u, x.retried) ∧ t.length ≤ n ∧
      r.1 = sel ob.pre.db ∧
      ((ob.out = .ok ∧ r.2 = none) ∨ ∃ m, ob.out = .trunc m ∧ r.2 = some m)

/-- Successful query. -/
theorem path_queryLoop_ok {β : Type} {sel : DB → β} {n : Nat} {t : List Obs} {r : β × Option Nat}
    (h : Path (queryLoop sel n) t (.ok r)) : QueryOk sel n t r := by
  induction n generalizing t with
  | zero =>
    obtain ⟨_, h⟩ := path_ret h
    cases h
  | succ n ih =>
    cases h with
    | @step _ _ t' _ w o h' =>
      have hrec : ∀ e : DbErr, (o = .fail e ∨ o = .lost e) → e.retry = true →
          Path (queryLoop sel n) t' (.ok r) → QueryOk sel (n + 1) (⟨w, o, w.exec id o⟩ :: t') r := fun e ho he hp => by
        obtain ⟨u, ob, rfl, h1, h2, h3, h4⟩ := ih hp
        refine ⟨⟨w, o, w.exec id o⟩ :: u, ob, rfl, ?_, ?_, ?_, h4⟩
        · intro x hx
          rcases List.mem_cons.1 hx with rfl | hx
          · rfl
          · exact h1 x hx
        · intro x hx
          rcases List.mem_cons.1 hx with rfl | hx
          · have := retry_busy he; subst this; exact ho
          · exact h2 x hx
        · simp at h3 ⊢; omega
      cases o with
      | ok =>
        obtain ⟨rfl, h⟩ := path_ret h'
        cases h
        exact ⟨[], _, rfl, by simp [Obs.isQuery], by simp, by simp, rfl, Or.inl ⟨rfl, rfl⟩⟩
      | trunc m =>
        obtain ⟨rfl, h⟩ := path_ret h'
        cases h
        exact ⟨[], _, rfl, by simp [Obs.isQuery], by simp, by simp, rfl, Or.inr ⟨m, rfl, rfl⟩⟩
      | fail e =>
        simp only at h'
        split at h'
        · rename_i he; exact hrec e (Or.inl rfl) he h'
        · obtain ⟨_, h⟩ := path_ret h'; cases h
      | lost e =>
        simp only at h'
        split at h'
        · rename_i he; exact hrec e (Or.inr rfl) he h'
        · obtain ⟨_, h⟩ := path_ret h'; cases h

/-- What any query with at most `n` attempts looks like. -/
def QueryAny {β : Type} (n : Nat) (t : List Obs) (r : Except ApiErr (β × Option Nat)) : Prop :=
  (∀ x ∈ t, x.isQuery) ∧ t.length ≤ n ∧ (∀ e, r = .error e → ∃ d, e = .db d)

/-- All attempts of a query are queries. -/
theorem path_queryLoop {β : Type} {sel : DB → β} {n : Nat} {t : List Obs}
    {r : Except ApiErr (β × Option Nat)} (h : Path (queryLoop sel n) t r) : QueryAny n t r := by
  induction n generalizing t with
  | zero =>
    obtain ⟨rfl, rfl⟩ := path_ret h
    exact ⟨by simp, by simp, fun e he => ⟨_, (Except.error.inj he).symm⟩⟩
  | succ n ih =>
    cases h with
    | @step _ _ t' _ w o h' =>
      have hrec : Path (queryLoop sel n) t' r → QueryAny (n + 1) (⟨w, o, w.exec id o⟩ :: t') r := fun hp => by
        obtain ⟨h1, h2, h3⟩ := ih hp
        refine ⟨?_, ?_, h3⟩
        · intro x hx
          rcases List.mem_cons.1 hx with rfl | hx
          · rfl
          · exact h1 x hx
        · simp; omega
      have fin : ∀ d, Path (.ret (.error (.db d))) t' r → QueryAny (n + 1) (⟨w, o, w.exec id o⟩ :: t') r := fun d hp => by
        obtain ⟨rfl, rfl⟩ := path_ret hp
        exact ⟨by simp [Obs.isQuery], by simp, fun e he => ⟨d, (Except.error.inj he).symm⟩⟩
      have fin2 : ∀ x, Path (.ret (.ok x)) t' r → QueryAny (n + 1) (⟨w, o, w.exec id o⟩ :: t') r := fun x hp => by
        obtain ⟨rfl, rfl⟩ := path_ret hp
        exact ⟨by simp [Obs.isQuery], by simp, fun e he => by cases he⟩
      cases o with
      | ok => exact fin2 _ h'
      | trunc m => exact fin2 _ h'
      | fail e =>
        simp only at h'
        split at h'
        · exact hrec h'
        · exact fin _ h'
      | lost e =>
        simp only at h'
        split at h'
        · exact hrec h'
        · exact fin _ h'

/-- An attempt to execute statement `st`. -/
def Obs.isExec (st : DB → DB × ExecResult) (ob : Obs) : Prop :=
  ob.post = ob.pre.exec (fun db => (st db).1) ob.out

/-- What executing a statement with at most `n` attempts looks like: all attempts are attempts of the same
statement; every attempt but the last ended in a retryable error; the answer is that of the last attempt. -/
def ExecAny (st : DB → DB × ExecResult) (n : Nat) (t : List Obs) (r : Except ApiErr ExecResult) : Prop :=
  (∀ x ∈ t, x.isExec st) ∧ t.length ≤ n ∧
    ((∃ u ob, t = u ++ [ob] ∧ (∀ x ∈ u, x.retried) ∧
        (ob.out = .ok ∨ ∃ m, ob.out = .trunc m) ∧ r = .ok (st ob.pre.db).2) ∨
     (∃ u ob e, t = u ++ [ob] ∧ (∀ x ∈ u, x.retried) ∧
        (ob.out = .fail e ∨ ob.out = .lost e) ∧ e ≠ .busy ∧ r = .error (.db e)) ∨
     (t.length = n ∧ (∀ x ∈ t, x.retried) ∧ r = .error (.db .busy)))

theorem path_executeLoop {st : DB → DB × ExecResult} {n : Nat} {t : List Obs}
    {r : Except ApiErr ExecResult} (h : Path (executeLoop st n) t r) : ExecAny st n t r := by
  induction n generalizing t with
  | zero =>
    obtain ⟨rfl, rfl⟩ := path_ret h
    exact ⟨by simp, by simp, Or.inr (Or.inr ⟨rfl, by simp, rfl⟩)⟩
  | succ n ih =>
    cases h with
    | @step _ _ t' _ w o h' =>
      have hrec : ∀ e : DbErr, (o = .fail e ∨ o = .lost e) → e.retry = true →
          Path (executeLoop st n) t' r →
          ExecAny st (n + 1) (⟨w, o, w.exec (fun db => (st db).1) o⟩ :: t') r := fun e ho he hp => by
        obtain ⟨h1, h2, h3⟩ := ih hp
        have hret : Obs.retried ⟨w, o, w.exec (fun db => (st db).1) o⟩ := by
          have := retry_busy he; subst this; exact ho
        refine ⟨?_, by simp; omega, ?_⟩
        · intro x hx
          rcases List.mem_cons.1 hx with rfl | hx
          · rfl
          · exact h1 x hx
        · rcases h3 with ⟨u, ob, rfl, a, b⟩ | ⟨u, ob, e', rfl, a, b⟩ | ⟨a, b, c⟩
          · left
            refine ⟨_ :: u, ob, rfl, ?_, b⟩
            intro x hx
            rcases List.mem_cons.1 hx with rfl | hx
            · exact hret
            · exact a x hx
          · right; left
            refine ⟨_ :: u, ob, e', rfl, ?_, b⟩
            intro x hx
            rcases List.mem_cons.1 hx with rfl | hx
            · exact hret
            · exact a x hx
          · right; right
            refine ⟨by simp; omega, ?_, c⟩
            intro x hx
            rcases List.mem_cons.1 hx with rfl | hx
            · exact hret
            · exact b x hx
      have fin : ∀ e : DbErr, (o = .fail e ∨ o = .lost e) → ¬ e.retry = true →
          Path (.ret (.error (.db e))) t' r →
          ExecAny st (n + 1) (⟨w, o, w.exec (fun db => (st db).1) o⟩ :: t') r := fun e ho he hp => by
        obtain ⟨rfl, rfl⟩ := path_ret hp
        refine ⟨by simp [Obs.isExec], by simp, Or.inr (Or.inl ⟨[], _, e, rfl, by simp, ho, ?_, rfl⟩)⟩
        intro hb; subst hb; exact he rfl
      cases o with
      | ok =>
        obtain ⟨rfl, rfl⟩ := path_ret h'
        exact ⟨by simp [Obs.isExec], by simp, Or.inl ⟨[], _, rfl, by simp, Or.inl rfl, rfl⟩⟩
      | trunc m =>
        obtain ⟨rfl, rfl⟩ := path_ret h'
        exact ⟨by simp [Obs.isExec], by simp, Or.inl ⟨[], _, rfl, by simp, Or.inr ⟨m, rfl⟩, rfl⟩⟩
      | fail e =>
        simp only at h'
        split at h'
        · rename_i he; exact hrec e (Or.inl rfl) he h'
        · rename_i he; exact fin e (Or.inl rfl) he h'
      | lost e =>
        simp only at h'
        split at h'
        · rename_i he; exact hrec e (Or.inr rfl) he h'
        · rename_i he; exact fin e (Or.inr rfl) he h'

end Verif
