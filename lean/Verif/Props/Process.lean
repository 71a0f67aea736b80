import Verif.Model.Process
/-!
# C92 Starting and stopping are done in order
-/

namespace Verif

/-! ## Executions -/

theorem BootPath.bind_inv {α β : Type} {p : BootProg α} {f : α → BootProg β} {l : BootLog} {r : Option β}
    (h : BootPath (p.bind f) l r) :
    (∃ a l₁ l₂, l = l₁ ++ l₂ ∧ BootPath p l₁ (some a) ∧ BootPath (f a) l₂ r) ∨ (BootPath p l none ∧ r = none) := by
  induction p generalizing l with
  | ret a => exact Or.inl ⟨a, [], l, rfl, .ret a, h⟩
  | call op k ih =>
    cases h with
    | died => exact Or.inr ⟨.died _, rfl⟩
    | call _ _ b h =>
      rcases ih b h with ⟨a, l₁, l₂, rfl, h1, h2⟩ | ⟨h1, h2⟩
      · exact Or.inl ⟨a, (op, b) :: l₁, l₂, rfl, .call op k b h1, h2⟩
      · exact Or.inr ⟨.call op k b h1, h2⟩

theorem BootPath.run_inv {β : Type} {op : BootOp} {f : Unit → BootProg β} {l : BootLog} {r : Option β}
    (h : BootPath ((BootProg.run op).bind f) l r) :
    (∃ b l₂, l = (op, b) :: l₂ ∧ BootPath (f ()) l₂ r) ∨ (l = [] ∧ r = none) := by
  cases h with
  | died => exact Or.inr ⟨rfl, rfl⟩
  | call _ _ b h => exact Or.inl ⟨b, _, rfl, h⟩

theorem BootPath.call_inv {β : Type} {op : BootOp} {k : Bool → BootProg β} {l : BootLog} {r : Option β}
    (h : BootPath (.call op k) l r) :
    (∃ b l₂, l = (op, b) :: l₂ ∧ BootPath (k b) l₂ r) ∨ (l = [] ∧ r = none) := by
  cases h with
  | died => exact Or.inr ⟨rfl, rfl⟩
  | call _ _ b h => exact Or.inl ⟨b, _, rfl, h⟩

theorem BootPath.ret_inv {β : Type} {a : β} {l : BootLog} {r : Option β} (h : BootPath (.ret a) l r) :
    l = [] ∧ (r = some a ∨ r = none) := by
  cases h with
  | ret => exact ⟨rfl, Or.inl rfl⟩
  | died => exact ⟨rfl, Or.inr rfl⟩

/-- The process may die after any part of what it does. -/
theorem BootPath.cut {α : Type} {p : BootProg α} {a b : BootLog} {r : Option α} (h : BootPath p (a ++ b) r) :
    BootPath p a none := by
  induction a generalizing p with
  | nil => exact .died p
  | cons x a ih =>
    cases h with
    | call op k c h => exact .call op k c (ih h)

/-! ## Specification -/

/-- How often the database was opened. -/
def BootLog.opens (l : BootLog) : Nat := l.countP fun x => x = (.open, true)
/-- How often a database was closed, by itself or with the backend. -/
def BootLog.closes (l : BootLog) : Nat := l.countP fun x => x.1 = .closeDb ∨ x.1 = .backendClose
/-- How often an operation was tried. -/
def BootLog.tries (l : BootLog) (op : BootOp) : Nat := l.countP fun x => x.1 = op

theorem opens_append (a b : BootLog) : BootLog.opens (a ++ b) = a.opens + b.opens := List.countP_append
theorem closes_append (a b : BootLog) : BootLog.closes (a ++ b) = a.closes + b.closes := List.countP_append
theorem tries_append (a b : BootLog) (op : BootOp) : BootLog.tries (a ++ b) op = a.tries op + b.tries op := List.countP_append

/-! ## Opening the database -/

/-- All about opening the database. -/
theorem openLoop_path {n : Nat} {l : BootLog} {r : Option Bool} (h : BootPath (openLoop n) l r) :
    (∀ x ∈ l, x.1 = .open ∨ x.1 = .ping ∨ x.1 = .closeDb ∨ x.1 = .sleep) ∧ l.tries .open ≤ n ∧ l.length ≤ 4 * n ∧
    l.opens ≤ l.closes + 1 ∧ l.closes ≤ l.opens ∧ (r = some true → l.opens = l.closes + 1 ∧ (.ping, true) ∈ l) ∧
    (r = some false → l.opens = l.closes) := by
  induction n generalizing l r with
  | zero =>
    obtain ⟨rfl, h⟩ := BootPath.ret_inv h
    refine ⟨by simp, by simp [BootLog.tries], by simp, by simp [BootLog.opens], by simp [BootLog.closes], ?_, by simp [BootLog.opens, BootLog.closes]⟩
    rintro rfl; rcases h with h | h <;> cases h
  | succ n ih =>
    have key : ∀ {l : BootLog} {r : Option Bool},
        BootPath (.call .sleep fun go => if go then openLoop n else .ret false) l r →
        (∀ x ∈ l, x.1 = .open ∨ x.1 = .ping ∨ x.1 = .closeDb ∨ x.1 = .sleep) ∧ l.tries .open ≤ n ∧
        l.length ≤ 4 * n + 1 ∧ l.opens ≤ l.closes + 1 ∧ l.closes ≤ l.opens ∧ (r = some true → l.opens = l.closes + 1 ∧ (.ping, true) ∈ l) ∧
        (r = some false → l.opens = l.closes) := by
      intro l r h
      rcases h.call_inv with ⟨b, l₂, rfl, h2⟩ | ⟨rfl, rfl⟩
      · cases b with
        | false =>
          obtain ⟨rfl, h3⟩ := BootPath.ret_inv h2
          refine ⟨by simp, by simp [BootLog.tries], by simp, by simp [BootLog.opens], by simp [BootLog.closes], ?_, by simp [BootLog.opens, BootLog.closes]⟩
          rintro rfl; rcases h3 with h3 | h3 <;> cases h3
        | true =>
          obtain ⟨h1, h2, h3, h4, h7, h5, h6⟩ := ih h2
          have e1 : BootLog.opens ((.sleep, true) :: l₂) = BootLog.opens l₂ := rfl
          have e2 : BootLog.closes ((.sleep, true) :: l₂) = BootLog.closes l₂ := rfl
          have e3 : BootLog.tries ((.sleep, true) :: l₂) .open = BootLog.tries l₂ .open := rfl
          rw [e1, e2, e3]
          refine ⟨?_, h2, by simp; omega, h4, h7, fun h => ⟨(h5 h).1, List.mem_cons_of_mem _ (h5 h).2⟩, h6⟩
          intro x hx
          rcases List.mem_cons.1 hx with rfl | hx
          · simp
          · exact h1 x hx
      · refine ⟨by simp, by simp [BootLog.tries], by simp, by simp [BootLog.opens], by simp [BootLog.closes], nofun, nofun⟩
    rcases h.bind_inv with ⟨a, l₁, l₂, rfl, h1, h2⟩ | ⟨h1, rfl⟩
    · rcases h1.call_inv with ⟨b, l₃, rfl, h3⟩ | ⟨_, h3⟩
      · cases b with
        | false =>
          obtain ⟨rfl, h4⟩ := BootPath.ret_inv h3
          rcases h4 with h4 | h4 <;> cases h4
          obtain ⟨h1, h2, h3, h4, h7, h5, h6⟩ := key h2
          have e1 : BootLog.opens ([(.open, false)] ++ l₂) = BootLog.opens l₂ := rfl
          have e2 : BootLog.closes ([(.open, false)] ++ l₂) = BootLog.closes l₂ := rfl
          have e3 : BootLog.tries ([(.open, false)] ++ l₂) .open = BootLog.tries l₂ .open + 1 := by
            rw [tries_append]; simp [BootLog.tries]; omega
          rw [e1, e2, e3]
          refine ⟨?_, by omega, by simp; omega, h4, h7, fun h => ⟨(h5 h).1, List.mem_append_right _ (h5 h).2⟩, h6⟩
          intro x hx
          rcases List.mem_append.1 hx with hx | hx
          · simp at hx; simp [hx]
          · exact h1 x hx
        | true =>
          rcases BootPath.call_inv h3 with ⟨b, l₄, rfl, h4⟩ | ⟨_, h4⟩
          · cases b with
            | true =>
              obtain ⟨rfl, h5⟩ := BootPath.ret_inv h4
              rcases h5 with h5 | h5 <;> cases h5
              obtain ⟨rfl, h6⟩ := BootPath.ret_inv h2
              refine ⟨by simp, by simp [BootLog.tries], by simp; omega, by simp [BootLog.opens, BootLog.closes],
                by simp [BootLog.opens, BootLog.closes], by simp [BootLog.opens, BootLog.closes], ?_⟩
              rintro rfl; rcases h6 with h6 | h6 <;> cases h6
            | false =>
              rcases BootPath.run_inv h4 with ⟨b, l₅, rfl, h5⟩ | ⟨_, h5⟩
              · obtain ⟨rfl, h6⟩ := BootPath.ret_inv h5
                rcases h6 with h6 | h6 <;> cases h6
                obtain ⟨h1, h2, h3, h4, h7, h5, h6⟩ := key h2
                have e1 : BootLog.opens ([(.open, true), (.ping, false), (.closeDb, b)] ++ l₂) = BootLog.opens l₂ + 1 := by
                  rw [opens_append]; simp [BootLog.opens]; omega
                have e2 : BootLog.closes ([(.open, true), (.ping, false), (.closeDb, b)] ++ l₂) = BootLog.closes l₂ + 1 := by
                  rw [closes_append]; simp [BootLog.closes]; omega
                have e3 : BootLog.tries ([(.open, true), (.ping, false), (.closeDb, b)] ++ l₂) .open = BootLog.tries l₂ .open + 1 := by
                  rw [tries_append]; simp [BootLog.tries]; omega
                rw [e1, e2, e3]
                refine ⟨?_, by omega, by simp; omega, by omega, by omega,
                  fun h => ⟨by rw [(h5 h).1], List.mem_append_right _ (h5 h).2⟩, fun h => by rw [h6 h]⟩
                intro x hx
                rcases List.mem_append.1 hx with hx | hx
                · simp at hx; rcases hx with rfl | rfl | rfl <;> simp
                · exact h1 x hx
              · cases h5
          · cases h4
      · cases h3
    · rcases h1.call_inv with ⟨b, l₃, rfl, h3⟩ | ⟨rfl, _⟩
      · cases b with
        | false =>
          obtain ⟨rfl, h4⟩ := BootPath.ret_inv h3
          exact ⟨by simp, by simp [BootLog.tries], by simp; omega, by simp [BootLog.opens], by simp [BootLog.closes], nofun, nofun⟩
        | true =>
          rcases BootPath.call_inv h3 with ⟨b, l₄, rfl, h4⟩ | ⟨rfl, _⟩
          · cases b with
            | true =>
              obtain ⟨rfl, h5⟩ := BootPath.ret_inv h4
              exact ⟨by simp, by simp [BootLog.tries], by simp; omega, by simp [BootLog.opens], by simp [BootLog.closes], nofun, nofun⟩
            | false =>
              rcases BootPath.run_inv h4 with ⟨b, l₅, rfl, h5⟩ | ⟨rfl, _⟩
              · obtain ⟨rfl, _⟩ := BootPath.ret_inv h5
                exact ⟨by simp, by simp [BootLog.tries], by simp; omega, by simp [BootLog.opens],
                  by simp [BootLog.closes, BootLog.opens], nofun, nofun⟩
              · exact ⟨by simp, by simp [BootLog.tries], by simp; omega, by simp [BootLog.opens], by simp [BootLog.closes], nofun, nofun⟩
          · exact ⟨by simp, by simp [BootLog.tries], by simp; omega, by simp [BootLog.opens], by simp [BootLog.closes], nofun, nofun⟩
      · exact ⟨by simp, by simp [BootLog.tries], by simp, by simp [BootLog.opens], by simp [BootLog.closes], nofun, nofun⟩

/-- All about setting up the schema. -/
theorem setupLoop_path {n : Nat} {l : BootLog} {r : Option Bool} (h : BootPath (setupLoop n) l r) :
    (∀ x ∈ l, x.1 = .setup ∨ x.1 = .incompatible ∨ x.1 = .sleep) ∧ l.tries .setup ≤ n ∧ l.length ≤ 3 * n ∧
    (r = some true → (.setup, true) ∈ l) := by
  induction n generalizing l r with
  | zero =>
    obtain ⟨rfl, h⟩ := BootPath.ret_inv h
    refine ⟨by simp, by simp [BootLog.tries], by simp, ?_⟩
    rintro rfl; rcases h with h | h <;> cases h
  | succ n ih =>
    rcases BootPath.call_inv h with ⟨b, l₁, rfl, h1⟩ | ⟨rfl, rfl⟩
    · cases b with
      | true =>
        obtain ⟨rfl, _⟩ := BootPath.ret_inv h1
        exact ⟨by simp, by simp [BootLog.tries], by simp; omega, by simp⟩
      | false =>
        rcases BootPath.call_inv h1 with ⟨b, l₂, rfl, h2⟩ | ⟨rfl, rfl⟩
        · cases b with
          | true =>
            obtain ⟨rfl, h3⟩ := BootPath.ret_inv h2
            refine ⟨by simp, by simp [BootLog.tries], by simp; omega, ?_⟩
            rintro rfl; rcases h3 with h3 | h3 <;> cases h3
          | false =>
            rcases BootPath.call_inv h2 with ⟨b, l₃, rfl, h3⟩ | ⟨rfl, rfl⟩
            · cases b with
              | false =>
                obtain ⟨rfl, h4⟩ := BootPath.ret_inv h3
                refine ⟨by simp, by simp [BootLog.tries], by simp; omega, ?_⟩
                rintro rfl; rcases h4 with h4 | h4 <;> cases h4
              | true =>
                obtain ⟨h1, h2, h3, h4⟩ := ih h3
                have e : BootLog.tries ((.setup, false) :: (.incompatible, false) :: (.sleep, true) :: l₃) .setup =
                    BootLog.tries l₃ .setup + 1 := by simp [BootLog.tries]
                rw [e]
                refine ⟨?_, by omega, by simp; omega, fun h => by simp [h4 h]⟩
                intro x hx
                simp only [List.mem_cons] at hx
                rcases hx with rfl | rfl | rfl | hx
                · simp
                · simp
                · simp
                · exact h1 x hx
            · exact ⟨by simp, by simp [BootLog.tries], by simp; omega, nofun⟩
        · exact ⟨by simp, by simp [BootLog.tries], by simp; omega, nofun⟩
    · exact ⟨by simp, by simp [BootLog.tries], by simp, nofun⟩

/-! ## Starting -/

/-- What `Start` does after the database is open and its schema is set up. -/
inductive StartTail : BootLog → Option Started → Prop where
  | bs : StartTail [(.backendStart, b)] none
  | notStarted : StartTail [(.backendStart, false), (.backendClose, c)] (some ⟨false, false⟩)
  | notStartedDied : StartTail [(.backendStart, false), (.backendClose, c)] none
  | notListening : StartTail [(.backendStart, true), (.listen, false)] (some ⟨false, true⟩)
  | listenDied : StartTail [(.backendStart, true), (.listen, b)] none
  | started : StartTail [(.backendStart, true), (.listen, true), (.watchdog, c)] (some ⟨true, true⟩)
  | startedDied : StartTail [(.backendStart, true), (.listen, true), (.watchdog, c)] none

/-- The operations before the backend is started. -/
def BootOp.early : BootOp → Bool
  | .ready | .open | .ping | .closeDb | .sleep | .setup | .incompatible => true
  | _ => false

/-- An execution of `Start`. -/
theorem start_path {l : BootLog} {r : Option Started} (h : BootPath Server.start l r) :
    ∃ l₁ l₂, l = l₁ ++ l₂ ∧ (∀ x ∈ l₁, x.1.early = true) ∧ l₁.tries .open ≤ 300 ∧ l₁.tries .setup ≤ 300 ∧
      l₁.length ≤ 2101 ∧ (l₁.opens ≤ l₁.closes + 1 ∧ l₁.closes ≤ l₁.opens) ∧
      ((l₂ = [] ∧ (r = none ∨ r = some ⟨false, false⟩)) ∨
        ((.ready, true) ∈ l₁ ∧ (.ping, true) ∈ l₁ ∧ (.setup, true) ∈ l₁ ∧ l₁.opens = l₁.closes + 1 ∧ StartTail l₂ r)) := by
  rcases BootPath.call_inv h with ⟨b, m, rfl, h1⟩ | ⟨rfl, rfl⟩
  · cases b with
    | false =>
      obtain ⟨rfl, h2⟩ := BootPath.ret_inv h1
      exact ⟨[(.ready, false)], [], rfl, by simp [BootOp.early], by simp [BootLog.tries], by simp [BootLog.tries], by simp,
        by simp [BootLog.opens, BootLog.closes], Or.inl ⟨rfl, h2.symm⟩⟩
    | true =>
      rcases BootPath.bind_inv h1 with ⟨a, m₁, m₂, rfl, h2, h3⟩ | ⟨h2, rfl⟩
      · obtain ⟨o1, o2, o3, o4, o7, o5, o6⟩ := openLoop_path h2
        have t1 : BootLog.tries m₁ .setup = 0 := by
          refine List.countP_eq_zero.2 fun x hx => ?_
          rcases o1 x hx with h | h | h | h <;> simp [h]
        have oe : ∀ x ∈ m₁, x.1.early = true := by
          intro x hx
          rcases o1 x hx with h | h | h | h <;> simp [h, BootOp.early]
        cases a with
        | false =>
          obtain ⟨rfl, h4⟩ := BootPath.ret_inv h3
          refine ⟨(.ready, true) :: m₁, [], by simp, ?_, ?_, ?_, by simp; omega, ?_, Or.inl ⟨rfl, h4.symm⟩⟩
          · simpa [BootOp.early] using oe
          · simpa [BootLog.tries] using o2
          · have : BootLog.tries ((.ready, true) :: m₁) .setup = BootLog.tries m₁ .setup := rfl
            omega
          · exact ⟨o4, o7⟩
        | true =>
          rcases BootPath.bind_inv h3 with ⟨a, m₃, m₄, rfl, h4, h5⟩ | ⟨h4, rfl⟩
          · obtain ⟨s1, s2, s3, s4⟩ := setupLoop_path h4
            have z : BootLog.tries m₃ .open = 0 ∧ BootLog.opens m₃ = 0 ∧ BootLog.closes m₃ = 0 := by
              refine ⟨?_, ?_, ?_⟩ <;> refine List.countP_eq_zero.2 fun x hx => ?_ <;>
                rcases s1 x hx with h | h | h <;> obtain ⟨y, b⟩ := x <;> cases h <;> simp
            have se : ∀ x ∈ m₃, x.1.early = true := by
              intro x hx
              rcases s1 x hx with h | h | h <;> simp [h, BootOp.early]
            have c1 : ∀ x ∈ (.ready, true) :: (m₁ ++ m₃), x.1.early = true := by
              intro x hx
              simp only [List.mem_cons, List.mem_append] at hx
              rcases hx with rfl | hx | hx
              · rfl
              · exact oe x hx
              · exact se x hx
            have c2 : BootLog.tries ((.ready, true) :: (m₁ ++ m₃)) .open ≤ 300 := by
              show BootLog.tries (m₁ ++ m₃) .open ≤ 300
              rw [tries_append]; omega
            have c3 : BootLog.tries ((.ready, true) :: (m₁ ++ m₃)) .setup ≤ 300 := by
              show BootLog.tries (m₁ ++ m₃) .setup ≤ 300
              rw [tries_append]; omega
            have c4 : ((.ready, true) :: (m₁ ++ m₃)).length ≤ 2101 := by simp; omega
            have c5 : BootLog.opens ((.ready, true) :: (m₁ ++ m₃)) = BootLog.closes ((.ready, true) :: (m₁ ++ m₃)) + 1 := by
              show BootLog.opens (m₁ ++ m₃) = BootLog.closes (m₁ ++ m₃) + 1
              rw [opens_append, closes_append]
              have := (o5 rfl).1
              omega
            cases a with
            | false =>
              obtain ⟨rfl, h6⟩ := BootPath.ret_inv h5
              exact ⟨_, [], by simp, c1, c2, c3, c4, ⟨by omega, by omega⟩, Or.inl ⟨rfl, h6.symm⟩⟩
            | true =>
              refine ⟨(.ready, true) :: (m₁ ++ m₃), m₄, by simp, c1, c2, c3, c4, ⟨by omega, by omega⟩, ?_⟩
              rcases BootPath.call_inv h5 with ⟨b, m₅, rfl, h6⟩ | ⟨rfl, rfl⟩
              · refine Or.inr ⟨by simp, by simp [(o5 rfl).2], by simp [s4 rfl], c5, ?_⟩
                cases b with
                | false =>
                  rcases BootPath.run_inv h6 with ⟨c, m₆, rfl, h7⟩ | ⟨rfl, rfl⟩
                  · obtain ⟨rfl, h8 | h8⟩ := BootPath.ret_inv h7
                    · rw [h8]; exact .notStarted
                    · rw [h8]; exact .notStartedDied
                  · exact .bs
                | true =>
                  rcases BootPath.call_inv h6 with ⟨c, m₆, rfl, h7⟩ | ⟨rfl, rfl⟩
                  · cases c with
                    | false =>
                      obtain ⟨rfl, h8 | h8⟩ := BootPath.ret_inv h7
                      · rw [h8]; exact .notListening
                      · rw [h8]; exact .listenDied
                    | true =>
                      rcases BootPath.run_inv h7 with ⟨c, m₇, rfl, h8⟩ | ⟨rfl, rfl⟩
                      · obtain ⟨rfl, h9 | h9⟩ := BootPath.ret_inv h8
                        · rw [h9]; exact .started
                        · rw [h9]; exact .startedDied
                      · exact .listenDied
                  · exact .bs
              · exact Or.inl ⟨rfl, Or.inl rfl⟩
          · obtain ⟨s1, s2, s3, s4⟩ := setupLoop_path h4
            have z : BootLog.tries m₂ .open = 0 ∧ BootLog.opens m₂ = 0 ∧ BootLog.closes m₂ = 0 := by
              refine ⟨?_, ?_, ?_⟩ <;> refine List.countP_eq_zero.2 fun x hx => ?_ <;>
                rcases s1 x hx with h | h | h <;> obtain ⟨y, b⟩ := x <;> cases h <;> simp
            refine ⟨(.ready, true) :: (m₁ ++ m₂), [], by simp, ?_, ?_, ?_, by simp; omega, ?_, Or.inl ⟨rfl, Or.inl rfl⟩⟩
            · intro x hx
              simp only [List.mem_cons, List.mem_append] at hx
              rcases hx with rfl | hx | hx
              · rfl
              · exact oe x hx
              · rcases s1 x hx with h | h | h <;> simp [h, BootOp.early]
            · show BootLog.tries (m₁ ++ m₂) .open ≤ 300
              rw [tries_append]; omega
            · show BootLog.tries (m₁ ++ m₂) .setup ≤ 300
              rw [tries_append]; omega
            · show BootLog.opens (m₁ ++ m₂) ≤ BootLog.closes (m₁ ++ m₂) + 1 ∧
                BootLog.closes (m₁ ++ m₂) ≤ BootLog.opens (m₁ ++ m₂)
              rw [opens_append, closes_append]
              have := (o5 rfl).1
              omega
      · obtain ⟨o1, o2, o3, o4, o7, o5, o6⟩ := openLoop_path h2
        have t1 : BootLog.tries m .setup = 0 := by
          refine List.countP_eq_zero.2 fun x hx => ?_
          rcases o1 x hx with h | h | h | h <;> simp [h]
        refine ⟨(.ready, true) :: m, [], by simp, ?_, ?_, ?_, by simp; omega, ?_, Or.inl ⟨rfl, Or.inl rfl⟩⟩
        · intro x hx
          rcases List.mem_cons.1 hx with rfl | hx
          · rfl
          · rcases o1 x hx with h | h | h | h <;> simp [h, BootOp.early]
        · simpa [BootLog.tries] using o2
        · have : BootLog.tries ((.ready, true) :: m) .setup = BootLog.tries m .setup := rfl
          omega
        · exact ⟨o4, o7⟩
  · exact ⟨[], [], rfl, by simp, by simp [BootLog.tries], by simp [BootLog.tries], by simp, by simp [BootLog.opens, BootLog.closes],
      Or.inl ⟨rfl, Or.inl rfl⟩⟩

/-! ## The whole process -/

/-- What the process does after `Start` succeeded. -/
inductive StopTail (otel : Bool) : BootLog → Option ExitStatus → Prop where
  | serving : StopTail otel [] none
  | wait : StopTail otel [(.wait, a)] none
  | cancel : StopTail otel [(.wait, a), (.cancel, b)] none
  | bclose : StopTail otel [(.wait, a), (.cancel, b), (.backendClose, c)] none
  | bfailed : StopTail otel [(.wait, a), (.cancel, b), (.backendClose, false)] (some .fatal)
  | handover : StopTail otel [(.wait, a), (.cancel, b), (.backendClose, true), (.handover, d)] none
  | aclose : StopTail otel [(.wait, a), (.cancel, b), (.backendClose, true), (.handover, d), (.appClose, e)] none
  | afailed :
      StopTail otel [(.wait, a), (.cancel, b), (.backendClose, true), (.handover, d), (.appClose, false)] (some .fatal)
  | stopped : StopTail otel
      [(.wait, a), (.cancel, b), (.backendClose, true), (.handover, d), (.appClose, true), (.closeStopCh, f)] none
  | done (h : otel = false) : StopTail otel
      [(.wait, a), (.cancel, b), (.backendClose, true), (.handover, d), (.appClose, true), (.closeStopCh, f)] (some .success)
  | traced (h : otel = true) (hr : r = none ∨ r = some .success) : StopTail otel
      [(.wait, a), (.cancel, b), (.backendClose, true), (.handover, d), (.appClose, true), (.closeStopCh, f),
        (.otelShutdown, g)] r

/-- An execution of the process. -/
theorem main_path {otel : Bool} {l : BootLog} {r : Option ExitStatus} (h : BootPath (mainRun otel) l r) :
    (l = [] ∧ r = none) ∨ (l = [(.new, false)] ∧ (r = none ∨ r = some .fatal)) ∨
    (∃ l₁, l = (.new, true) :: l₁ ∧ BootPath Server.start l₁ none ∧ r = none) ∨
    (∃ l₁ b, l = (.new, true) :: l₁ ∧ BootPath Server.start l₁ (some ⟨false, b⟩) ∧ (r = none ∨ r = some .fatal)) ∨
    (∃ l₁ l₂, l = (.new, true) :: (l₁ ++ l₂) ∧ BootPath Server.start l₁ (some ⟨true, true⟩) ∧ StopTail otel l₂ r) := by
  rcases BootPath.call_inv h with ⟨b, m, rfl, h1⟩ | ⟨rfl, rfl⟩
  · cases b with
    | false =>
      obtain ⟨rfl, h2⟩ := BootPath.ret_inv h1
      exact Or.inr (Or.inl ⟨rfl, h2.symm⟩)
    | true =>
      rcases BootPath.bind_inv h1 with ⟨⟨ok, bk⟩, m₁, m₂, rfl, h2, h3⟩ | ⟨h2, rfl⟩
      · cases ok with
        | false =>
          obtain ⟨rfl, h4⟩ := BootPath.ret_inv h3
          exact Or.inr (Or.inr (Or.inr (Or.inl ⟨m₁, bk, by simp, h2, h4.symm⟩)))
        | true =>
          have hb : bk = true := by
            obtain ⟨_, _, _, _, _, _, _, _, ⟨_, h | h⟩ | ⟨_, _, _, _, ht⟩⟩ := start_path h2
            · cases h
            · cases h
            · cases ht; rfl
          subst hb
          refine Or.inr (Or.inr (Or.inr (Or.inr ⟨m₁, m₂, rfl, h2, ?_⟩)))
          rcases BootPath.call_inv h3 with ⟨a, m₃, rfl, h4⟩ | ⟨rfl, rfl⟩
          · rcases BootPath.call_inv h4 with ⟨b, m₄, rfl, h5⟩ | ⟨rfl, rfl⟩
            · rcases BootPath.call_inv h5 with ⟨c, m₅, rfl, h6⟩ | ⟨rfl, rfl⟩
              · cases c with
                | false =>
                  obtain ⟨rfl, h7 | h7⟩ := BootPath.ret_inv h6
                  · rw [h7]; exact .bfailed
                  · rw [h7]; exact .bclose
                | true =>
                  rcases BootPath.call_inv h6 with ⟨d, m₆, rfl, h7⟩ | ⟨rfl, rfl⟩
                  · rcases BootPath.call_inv h7 with ⟨e, m₇, rfl, h8⟩ | ⟨rfl, rfl⟩
                    · cases e with
                      | false =>
                        obtain ⟨rfl, h9 | h9⟩ := BootPath.ret_inv h8
                        · rw [h9]; exact .afailed
                        · rw [h9]; exact .aclose
                      | true =>
                        rcases BootPath.call_inv h8 with ⟨f, m₈, rfl, h9⟩ | ⟨rfl, rfl⟩
                        · cases otel with
                          | false =>
                            obtain ⟨rfl, h10 | h10⟩ := BootPath.ret_inv h9
                            · rw [h10]; exact .done rfl
                            · rw [h10]; exact .stopped
                          | true =>
                            rcases BootPath.call_inv h9 with ⟨g, m₉, rfl, h10⟩ | ⟨rfl, rfl⟩
                            · obtain ⟨rfl, h11⟩ := BootPath.ret_inv h10
                              exact .traced rfl h11.symm
                            · exact .stopped
                        · exact .aclose
                    · exact .handover
                  · exact .bclose
              · exact .cancel
            · exact .wait
          · exact .serving
      · exact Or.inr (Or.inr (Or.inl ⟨m, rfl, h2, rfl⟩))
  · exact Or.inl ⟨rfl, rfl⟩

theorem early_not {l : BootLog} (h : ∀ x ∈ l, x.1.early = true) {op : BootOp} {b : Bool} (ho : op.early = false) :
    (op, b) ∉ l := by
  intro hm
  have := h _ hm
  rw [show (op, b).1 = op from rfl, ho] at this
  cases this

/-- The calls of a successful `Start`. -/
theorem started_path {l : BootLog} {b : Bool} (h : BootPath Server.start l (some ⟨true, b⟩)) :
    ∃ l₁ c, l = l₁ ++ [(.backendStart, true), (.listen, true), (.watchdog, c)] ∧ (∀ x ∈ l₁, x.1.early = true) ∧
      BootLog.opens l₁ = BootLog.closes l₁ + 1 := by
  obtain ⟨l₁, l₂, rfl, h1, _, _, _, _, ⟨_, h | h⟩ | ⟨_, _, _, h2, ht⟩⟩ := start_path h
  · cases h
  · cases h
  · cases ht
    exact ⟨l₁, _, rfl, h1, h2⟩

/-- The process serves requests only when dqlite is ready, the database answers, its schema is set up and the backend
was started; and at that moment exactly one database is open. -/
theorem C92_serves_when_ready {otel : Bool} {a b : BootLog} {r : Option ExitStatus}
    (h : BootPath (mainRun otel) (a ++ (.listen, true) :: b) r) :
    (.new, true) ∈ a ∧ (.ready, true) ∈ a ∧ (.ping, true) ∈ a ∧ (.setup, true) ∈ a ∧ (.backendStart, true) ∈ a ∧
    BootLog.opens a = BootLog.closes a + 1 ∧ BootLog.tries a .listen = 0 := by
  have hc : BootPath (mainRun otel) (a ++ [(.listen, true)]) none := by
    refine BootPath.cut (b := b) (r := r) ?_
    simpa using h
  -- the part of `Start`
  have key : ∀ m : BootLog, BootPath Server.start m none → a ++ [(.listen, true)] = (.new, true) :: m →
      (.new, true) ∈ a ∧ (.ready, true) ∈ a ∧ (.ping, true) ∈ a ∧ (.setup, true) ∈ a ∧ (.backendStart, true) ∈ a ∧
      BootLog.opens a = BootLog.closes a + 1 ∧ BootLog.tries a .listen = 0 := by
    intro m hm e
    have hl : (.listen, true) ∈ m := by
      have : (.listen, true) ∈ (.new, true) :: m := by rw [← e]; simp
      simpa using this
    obtain ⟨l₁, l₂, rfl, h1, _, _, _, _, ⟨rfl, _⟩ | ⟨r1, r2, r3, r4, ht⟩⟩ := start_path hm
    · rw [List.append_nil] at hl
      exact absurd hl (early_not h1 rfl)
    · have fin : ∀ l₃ : BootLog, a = (.new, true) :: (l₁ ++ l₃) → l₃ = [(.backendStart, true)] →
          (.new, true) ∈ a ∧ (.ready, true) ∈ a ∧ (.ping, true) ∈ a ∧ (.setup, true) ∈ a ∧ (.backendStart, true) ∈ a ∧
          BootLog.opens a = BootLog.closes a + 1 ∧ BootLog.tries a .listen = 0 := by
        rintro l₃ rfl rfl
        refine ⟨by simp, by simp [r1], by simp [r2], by simp [r3], by simp, ?_, ?_⟩
        · show BootLog.opens (l₁ ++ _) = BootLog.closes (l₁ ++ _) + 1
          rw [opens_append, closes_append, r4]; rfl
        · show BootLog.tries (l₁ ++ _) .listen = 0
          rw [tries_append]
          have : BootLog.tries l₁ .listen = 0 := by
            refine List.countP_eq_zero.2 fun x hx hn => ?_
            have := h1 x hx
            rw [of_decide_eq_true hn] at this
            cases this
          rw [this]; rfl
      cases ht with
      | bs =>
        have e' : a ++ [(.listen, true)] = ((.new, true) :: l₁) ++ [(.backendStart, _)] := e
        have := (List.append_inj' e' rfl).2
        simp at this
      | notStartedDied =>
        rename_i c
        have e' : a ++ [(.listen, true)] = ((.new, true) :: (l₁ ++ [(.backendStart, false)])) ++ [(.backendClose, c)] := by
          rw [e]; simp
        have := (List.append_inj' e' rfl).2
        simp at this
      | listenDied =>
        rename_i c
        have e' : a ++ [(.listen, true)] = ((.new, true) :: (l₁ ++ [(.backendStart, true)])) ++ [(.listen, c)] := by
          rw [e]; simp
        exact fin _ (List.append_inj' e' rfl).1 rfl
      | startedDied =>
        rename_i c
        have e' : a ++ [(.listen, true)] =
            ((.new, true) :: (l₁ ++ [(.backendStart, true), (.listen, true)])) ++ [(.watchdog, c)] := by
          rw [e]; simp
        have := (List.append_inj' e' rfl).2
        simp at this
  rcases main_path hc with ⟨e, _⟩ | ⟨e, _⟩ | ⟨m, e, hm, _⟩ | ⟨m, c, e, hm, _⟩ | ⟨m₁, m₂, e, hm, ht⟩
  · simp at e
  · have e' : a ++ [(.listen, true)] = [] ++ [(.new, false)] := e
    have := (List.append_inj' e' rfl).2
    simp at this
  · exact key m hm e
  · exact key m (BootPath.cut (b := []) (by rw [List.append_nil]; exact hm)) e
  · obtain ⟨l₁, c, rfl, _, _⟩ := started_path hm
    exfalso
    generalize hg : (BootOp.new, true) :: (l₁ ++ [(.backendStart, true), (.listen, true), (.watchdog, c)]) = g at *
    have hlast : g.getLast? = some (.watchdog, c) := by
      rw [← hg]; simp [List.getLast?_cons, List.getLast?_append]
    have e : a ++ [(BootOp.listen, true)] = g ++ m₂ := by rw [e, ← hg]; rfl
    have hl := congrArg List.getLast? e
    rw [List.getLast?_append, List.getLast?_append] at hl
    cases ht <;> simp [hlast] at hl

/-- At no moment is more than one database open, or one closed that was not open; opening and setting up the schema are tried
at most 300 times each. -/
theorem C92_one_database {otel : Bool} {l : BootLog} {r : Option ExitStatus} (h : BootPath (mainRun otel) l r) :
    l.closes ≤ l.opens ∧ l.opens ≤ l.closes + 1 ∧ l.tries .open ≤ 300 ∧ l.tries .setup ≤ 300 := by
  have start : ∀ {m : BootLog} {q : Option Started}, BootPath Server.start m q →
      BootLog.closes m ≤ BootLog.opens m ∧ BootLog.opens m ≤ BootLog.closes m + 1 ∧ BootLog.tries m .open ≤ 300 ∧
      BootLog.tries m .setup ≤ 300 := by
    intro m q hm
    obtain ⟨l₁, l₂, rfl, _, t1, t2, _, ⟨t3, t4⟩, ⟨rfl, _⟩ | ⟨_, _, _, t5, ht⟩⟩ := start_path hm
    · rw [List.append_nil]
      exact ⟨t4, t3, t1, t2⟩
    · simp only [opens_append, closes_append, tries_append]
      have : BootLog.closes l₂ ≤ 1 ∧ BootLog.opens l₂ = 0 ∧ BootLog.tries l₂ .open = 0 ∧ BootLog.tries l₂ .setup = 0 := by
        cases ht <;> simp [BootLog.closes, BootLog.opens, BootLog.tries]
      omega
  rcases main_path h with ⟨rfl, _⟩ | ⟨rfl, _⟩ | ⟨m, rfl, hm, _⟩ | ⟨m, c, rfl, hm, _⟩ | ⟨m₁, m₂, rfl, hm, ht⟩
  · simp [BootLog.closes, BootLog.opens, BootLog.tries]
  · simp [BootLog.closes, BootLog.opens, BootLog.tries]
  · exact start (m := m) hm
  · exact start (m := m) hm
  · obtain ⟨_, _, t1, t2⟩ := start hm
    obtain ⟨l₁, c, rfl, _, t5⟩ := started_path hm
    show BootLog.closes (_ ++ m₂) ≤ BootLog.opens (_ ++ m₂) ∧ BootLog.opens (_ ++ m₂) ≤ BootLog.closes (_ ++ m₂) + 1 ∧
      BootLog.tries (_ ++ m₂) .open ≤ 300 ∧ BootLog.tries (_ ++ m₂) .setup ≤ 300
    rw [opens_append _ m₂, closes_append _ m₂, tries_append _ m₂, tries_append _ m₂, opens_append, closes_append]
    have e1 : BootLog.opens [(.backendStart, true), (.listen, true), (.watchdog, c)] = 0 := rfl
    have e2 : BootLog.closes [(.backendStart, true), (.listen, true), (.watchdog, c)] = 0 := rfl
    have : BootLog.closes m₂ ≤ 1 ∧ BootLog.opens m₂ = 0 ∧ BootLog.tries m₂ .open = 0 ∧ BootLog.tries m₂ .setup = 0 := by
      cases ht <;> simp [BootLog.closes, BootLog.opens, BootLog.tries]
    omega

/-- dqlite is closed only after the endpoint was told to stop, the backend and its database were closed, and
the leadership was handed over (or that was tried); nothing is left open then. -/
theorem C92_stop_order {otel : Bool} {a b : BootLog} {r : Option ExitStatus} {x : Bool}
    (h : BootPath (mainRun otel) (a ++ (.appClose, x) :: b) r) :
    (∃ y z w a', a = a' ++ [(.wait, y), (.cancel, z), (.backendClose, true), (.handover, w)] ∧ (.listen, true) ∈ a') ∧
    BootLog.opens a = BootLog.closes a := by
  have hc : BootPath (mainRun otel) (a ++ [(.appClose, x)]) none := by
    refine BootPath.cut (b := b) (r := r) ?_
    simpa using h
  have nostart : ∀ {m : BootLog} {q : Option Started}, BootPath Server.start m q → (.appClose, x) ∉ m := by
    intro m q hm hx
    obtain ⟨l₁, l₂, rfl, h1, _, _, _, _, ⟨rfl, _⟩ | ⟨_, _, _, _, ht⟩⟩ := start_path hm
    · rw [List.append_nil] at hx
      exact early_not h1 rfl hx
    · rcases List.mem_append.1 hx with hx | hx
      · exact early_not h1 rfl hx
      · cases ht <;> simp at hx
  have mem : (BootOp.appClose, x) ∈ a ++ [(BootOp.appClose, x)] := by simp
  rcases main_path hc with ⟨e, _⟩ | ⟨e, _⟩ | ⟨m, e, hm, _⟩ | ⟨m, c, e, hm, _⟩ | ⟨m₁, m₂, e, hm, ht⟩
  · rw [e] at mem; simp at mem
  · rw [e] at mem; simp at mem
  · rw [e] at mem; exact absurd (by simpa using mem) (nostart hm)
  · rw [e] at mem; exact absurd (by simpa using mem) (nostart hm)
  · obtain ⟨l₁, c, rfl, h1, t5⟩ := started_path hm
    have last : m₂.getLast? = some (.appClose, x) := by
      have hl := congrArg List.getLast? e
      have e' : (BootOp.new, true) :: (l₁ ++ [(.backendStart, true), (.listen, true), (.watchdog, c)] ++ m₂) =
        ((BootOp.new, true) :: (l₁ ++ [(.backendStart, true), (.listen, true), (.watchdog, c)])) ++ m₂ := rfl
      rw [e', List.getLast?_append, List.getLast?_append] at hl
      cases hm2 : m₂.getLast? with
      | none => rw [hm2] at hl; simp [List.getLast?_cons, List.getLast?_append] at hl
      | some z => rw [hm2] at hl; simp at hl; rw [hl]
    cases ht <;> simp at last
    rename_i y z w v
    have e' : a ++ [(.appClose, x)] = ((.new, true) :: (l₁ ++ [(.backendStart, true), (.listen, true), (.watchdog, c)] ++
        [(.wait, y), (.cancel, z), (.backendClose, true), (.handover, w)])) ++ [(.appClose, v)] := by rw [e]; simp
    have ea := (List.append_inj' e' rfl).1
    refine ⟨⟨y, z, w, (.new, true) :: (l₁ ++ [(.backendStart, true), (.listen, true), (.watchdog, c)]), ?_, by simp⟩, ?_⟩
    · rw [ea]; rfl
    · rw [ea]
      show BootLog.opens (l₁ ++ _ ++ _) = BootLog.closes (l₁ ++ _ ++ _)
      rw [opens_append, opens_append, closes_append, closes_append, t5]; rfl

/-- The process ends successfully only after it served, was asked to stop, and closed everything. -/
theorem C92_success {otel : Bool} {l : BootLog} (h : BootPath (mainRun otel) l (some .success)) :
    (.listen, true) ∈ l ∧ (∃ y, (.wait, y) ∈ l) ∧ (.backendClose, true) ∈ l ∧ (.appClose, true) ∈ l ∧ l.opens = l.closes ∧
    (otel = true → ∃ y, (.otelShutdown, y) ∈ l) := by
  rcases main_path h with ⟨_, e⟩ | ⟨_, e | e⟩ | ⟨_, _, _, e⟩ | ⟨_, _, _, _, e | e⟩ | ⟨m₁, m₂, rfl, hm, ht⟩
  · cases e
  · cases e
  · cases e
  · cases e
  · cases e
  · cases e
  · obtain ⟨l₁, c, rfl, h1, t5⟩ := started_path hm
    have bal : ∀ m : BootLog, BootLog.opens m = 0 → BootLog.closes m = 1 →
        BootLog.opens ((.new, true) :: (l₁ ++ [(.backendStart, true), (.listen, true), (.watchdog, c)] ++ m)) =
        BootLog.closes ((.new, true) :: (l₁ ++ [(.backendStart, true), (.listen, true), (.watchdog, c)] ++ m)) := by
      intro m e1 e2
      show BootLog.opens (l₁ ++ _ ++ _) = BootLog.closes (l₁ ++ _ ++ _)
      rw [opens_append, opens_append, closes_append, closes_append, t5, e1, e2]; rfl
    cases ht with
    | done ho =>
      subst ho
      exact ⟨by simp, ⟨_, by simp; exact Or.inr rfl⟩, by simp, by simp, bal _ rfl rfl, nofun⟩
    | traced ho _ =>
      exact ⟨by simp, ⟨_, by simp; exact Or.inr rfl⟩, by simp, by simp, bal _ rfl rfl,
        fun _ => ⟨_, by simp; exact Or.inr rfl⟩⟩

/-- The process never crashes in starting or stopping; and once it served, it fails only because closing the backend
or dqlite failed. -/
theorem C92_failures {otel : Bool} {l : BootLog} {s : ExitStatus} (h : BootPath (mainRun otel) l (some s)) :
    s ≠ .panicked ∧ (s = .fatal → (.listen, true) ∈ l → (.backendClose, false) ∈ l ∨ (.appClose, false) ∈ l) := by
  rcases main_path h with ⟨_, e⟩ | ⟨rfl, e | e⟩ | ⟨_, _, _, e⟩ | ⟨m, c, rfl, hm, e | e⟩ | ⟨m₁, m₂, rfl, hm, ht⟩
  · cases e
  · cases e
  · cases e; simp
  · cases e
  · cases e
  · cases e
    refine ⟨nofun, fun _ hx => ?_⟩
    exfalso
    have hx : (.listen, true) ∈ m := by simpa using hx
    obtain ⟨l₁, l₂, rfl, h1, _, _, _, _, ⟨rfl, _⟩ | ⟨_, _, _, _, ht⟩⟩ := start_path hm
    · rw [List.append_nil] at hx
      exact early_not h1 rfl hx
    · rcases List.mem_append.1 hx with hx | hx
      · exact early_not h1 rfl hx
      · cases ht <;> simp at hx
  · cases ht with
    | bfailed => simp
    | afailed => simp
    | done _ => simp
    | traced _ hr => rcases hr with hr | hr <;> cases hr; simp

/-- That handing over the leadership fails does not keep dqlite from being closed. -/
theorem C92_handover_may_fail {otel : Bool} {a b : BootLog} {s : ExitStatus} {x : Bool}
    (h : BootPath (mainRun otel) (a ++ (.handover, x) :: b) (some s)) : ∃ y, (.appClose, y) ∈ b := by
  have mem : (BootOp.handover, x) ∈ a ++ (BootOp.handover, x) :: b := by simp
  have nostart : ∀ {m : BootLog} {q : Option Started}, BootPath Server.start m q → ∀ x, (.handover, x) ∉ m := by
    intro m q hm x hx
    obtain ⟨l₁, l₂, rfl, h1, _, _, _, _, ⟨rfl, _⟩ | ⟨_, _, _, _, ht⟩⟩ := start_path hm
    · rw [List.append_nil] at hx
      exact early_not h1 rfl hx
    · rcases List.mem_append.1 hx with hx | hx
      · exact early_not h1 rfl hx
      · cases ht <;> simp at hx
  -- the rest of the list after its only handover
  have tail : ∀ (m v : BootLog) (d : Bool), (∀ x, (BootOp.handover, x) ∉ m) → (∀ x, (BootOp.handover, x) ∉ v) →
      a ++ (BootOp.handover, x) :: b = m ++ (BootOp.handover, d) :: v → b = v := by
    intro m v d hm hv e
    rcases List.append_eq_append_iff.1 e with ⟨t, rfl, e2⟩ | ⟨t, rfl, e2⟩
    · cases t with
      | nil => simp at e2; exact e2.2
      | cons y t =>
        rw [List.cons_append, List.cons.injEq] at e2
        exact absurd (show (BootOp.handover, x) ∈ a ++ y :: t by rw [← e2.1]; simp) (hm x)
    · cases t with
      | nil => simp at e2; exact e2.2.symm
      | cons y t =>
        rw [List.cons_append, List.cons.injEq] at e2
        exact absurd (show (BootOp.handover, x) ∈ v by rw [e2.2]; simp) (hv x)
  generalize hg : a ++ (BootOp.handover, x) :: b = g at *
  rcases main_path h with ⟨_, e⟩ | ⟨rfl, e | e⟩ | ⟨_, _, _, e⟩ | ⟨m, c, rfl, hm, e | e⟩ | ⟨m₁, m₂, rfl, hm, ht⟩
  · cases e
  · cases e
  · simp at mem
  · cases e
  · cases e
  · exact absurd (by simpa using mem) (nostart hm x)
  · have hn : ∀ y z c d, (BootOp.handover, d) ∉ (.new, true) :: (m₁ ++ [(.wait, y), (.cancel, z), (.backendClose, c)]) := by
      intro y z c d hd
      simp only [List.mem_cons, List.mem_append] at hd
      rcases hd with hd | hd | hd
      · cases hd
      · exact nostart hm d hd
      · simp at hd
    cases ht with
    | bfailed =>
      rename_i y z
      exact absurd mem (hn y z false x)
    | afailed =>
      rename_i y z w
      have := tail ((BootOp.new, true) :: (m₁ ++ [(BootOp.wait, y), (BootOp.cancel, z), (BootOp.backendClose, true)])) [(.appClose, false)] w
        (hn y z true) (by simp) (by simp)
      exact ⟨false, by rw [this]; simp⟩
    | done =>
      rename_i y z w f _
      have := tail ((BootOp.new, true) :: (m₁ ++ [(BootOp.wait, y), (BootOp.cancel, z), (BootOp.backendClose, true)]))
        [(.appClose, true), (.closeStopCh, f)] w (hn y z true) (by simp) (by simp)
      exact ⟨true, by rw [this]; simp⟩
    | traced =>
      rename_i y z w f v _ _
      have := tail ((BootOp.new, true) :: (m₁ ++ [(BootOp.wait, y), (BootOp.cancel, z), (BootOp.backendClose, true)]))
        [(.appClose, true), (.closeStopCh, f), (.otelShutdown, v)] w (hn y z true) (by simp) (by simp)
      exact ⟨true, by rw [this]; simp⟩

/-- `Start` succeeds exactly if it listens, and gives up after a bounded number of calls. -/
theorem C92_start {l : BootLog} {r : Option Started} (h : BootPath Server.start l r) :
    (∀ s, r = some s → (s.ok = true ↔ (.listen, true) ∈ l)) ∧ l.length ≤ 2104 := by
  obtain ⟨l₁, l₂, rfl, h1, _, _, t3, _, ⟨rfl, h2⟩ | ⟨_, _, _, _, ht⟩⟩ := start_path h
  · rw [List.append_nil]
    refine ⟨?_, by omega⟩
    rintro s rfl
    rcases h2 with h2 | h2 <;> cases h2
    simp [early_not h1 (op := .listen) rfl]
  · refine ⟨?_, ?_⟩
    · rintro s rfl
      cases ht <;> simp [early_not h1 (op := .listen) rfl]
    · rw [List.length_append]
      have : l₂.length ≤ 3 := by cases ht <;> simp
      omega

/-! ## What does not hold for users of the package `server` -/

/-- A `Start` that fails may leave the database open (when the schema cannot be set up), or the backend running and
the database open (when the address cannot be listened on). The command ends in both cases. -/
theorem C92_failed_start_counterexample :
    (∃ l, BootPath Server.start l (some ⟨false, false⟩) ∧ l.opens = 1 ∧ l.closes = 0) ∧
    ∃ l, BootPath Server.start l (some ⟨false, true⟩) ∧ (.backendStart, true) ∈ l ∧ l.opens = 1 ∧ l.closes = 0 := by
  refine ⟨⟨[(.ready, true), (.open, true), (.ping, true), (.setup, false), (.incompatible, true)], ?_, rfl, rfl⟩,
    ⟨[(.ready, true), (.open, true), (.ping, true), (.setup, true), (.backendStart, true), (.listen, false)], ?_, by simp,
      rfl, rfl⟩⟩
  · exact .call _ _ true (.call _ _ true (.call _ _ true (.call _ _ false (.call _ _ true (.ret _)))))
  · exact .call _ _ true (.call _ _ true (.call _ _ true (.call _ _ true (.call _ _ true (.call _ _ false (.ret _))))))

/-- `Shutdown` after a `Start` that failed dereferences `nil`. -/
theorem C92_shutdown_unstarted_counterexample :
    ∃ l, BootPath (Server.start.bind fun r => Server.shutdown r.backend) l (some .panicked) :=
  ⟨[(.ready, false)], .call _ _ false (.ret _)⟩

/-- A successful execution, with one failed attempt of opening the database: the theorems apply to it. -/
example : BootPath (mainRun true)
    [(.new, true), (.ready, true), (.open, true), (.ping, false), (.closeDb, true), (.sleep, true), (.open, true), (.ping, true),
      (.setup, true), (.backendStart, true), (.listen, true), (.watchdog, true), (.wait, true), (.cancel, true),
      (.backendClose, true), (.handover, false), (.appClose, true), (.closeStopCh, true), (.otelShutdown, true)]
    (some .success) :=
  .call _ _ true (.call _ _ true (.call _ _ true (.call _ _ false (.call _ _ true (.call _ _ true (.call _ _ true
    (.call _ _ true (.call _ _ true (.call _ _ true (.call _ _ true (.call _ _ true (.call _ _ true (.call _ _ true
    (.call _ _ true (.call _ _ false (.call _ _ true (.call _ _ true (.call _ _ true (.ret _)))))))))))))))))))

end Verif
