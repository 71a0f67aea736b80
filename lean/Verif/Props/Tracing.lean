import Verif.Model.Tracing
/-!
# C94 Exactly the selected spans are exported
-/

namespace Verif

/-- Specification: what the options select. -/
def Selected (compile : Bytes → Option (Bytes → Bool)) (o : TraceOpts) (s : Span) : Prop :=
  (o.pattern ≠ [] → ∃ f, compile o.pattern = some f ∧ f s.name = true) ∧ (0 < o.min → o.min ≤ s.endTime - s.startTime)

/-- A span is handed to the exporter exactly if its name matches the pattern, if there is one, and it took at least the
minimal time, if there is one; whatever the order in which the filters are chained. -/
theorem C94_filters {compile : Bytes → Option (Bytes → Bool)} {o : TraceOpts} {p : SpanProc}
    (h : newTraceProvider compile o = some p) (s : Span) : p.onEnd s = true ↔ Selected compile o s := by
  have dur : ∀ q : SpanProc, (if 0 < o.min then SpanProc.duration o.min q else q).onEnd s = true ↔
      q.onEnd s = true ∧ (0 < o.min → o.min ≤ s.endTime - s.startTime) := by
    intro q
    by_cases hm : 0 < o.min
    · rw [if_pos hm]
      simp only [SpanProc.onEnd, hm, decide_true, Bool.true_and]
      by_cases hl : s.endTime - s.startTime < o.min
      · simp only [hl, decide_true, if_true]
        constructor
        · nofun
        · rintro ⟨_, h⟩
          have := h trivial
          omega
      · simp only [hl, decide_false]
        simp
        omega
    · rw [if_neg hm]
      exact ⟨fun h => ⟨h, fun h' => absurd h' hm⟩, fun h => h.1⟩
  unfold newTraceProvider at h
  by_cases hp : o.pattern ≠ []
  · rw [if_pos hp] at h
    cases hc : compile o.pattern with
    | none => rw [hc] at h; cases h
    | some f =>
      rw [hc] at h
      simp only [Option.map_some, Option.some.injEq] at h
      subst h
      rw [dur]
      unfold Selected
      have : (SpanProc.name (some f) .batch).onEnd s = true ↔ f s.name = true := by
        simp only [SpanProc.onEnd]
        cases f s.name <;> simp
      rw [this]
      refine and_congr ⟨fun hf _ => ⟨f, hc, hf⟩, fun hf => ?_⟩ Iff.rfl
      obtain ⟨g, hg, hgs⟩ := hf hp
      rw [hc] at hg
      cases hg
      exact hgs
  · rw [if_neg hp] at h
    simp only [Option.map_some, Option.some.injEq] at h
    subst h
    rw [dur]
    unfold Selected
    refine and_congr ⟨fun _ h' => absurd h' hp, fun _ => rfl⟩ Iff.rfl

/-- Tracing is set up unless the pattern is not a regular expression; a duration that cannot be parsed means 10 ms. -/
theorem C94_setup (compile : Bytes → Option (Bytes → Bool)) (o : TraceOpts) :
    ((newTraceProvider compile o).isSome ↔ (o.pattern ≠ [] → (compile o.pattern).isSome)) ∧
    (o.minDuration = some none → o.min = 10000000) ∧ (o.minDuration = none → o.min = 0) ∧
    ∀ d, o.minDuration = some (some d) → o.min = d := by
  refine ⟨?_, ?_, ?_, ?_⟩
  · unfold newTraceProvider
    by_cases hp : o.pattern ≠ []
    · rw [if_pos hp]; simp [hp]
    · rw [if_neg hp]; simp [hp]
  all_goals intros; simp [TraceOpts.min, *]

/-- **C94** (what does hold). What is exported are spans that ended, in this order, each at most once, and all of them
selected. And before the shutdown, every selected span is exported with the next flush, provided that there were no more than 2048 of
them since the last one. -/
theorem C94_exported_partial {p : SpanProc} {t : TraceSys} (h : TraceSteps (.init p) t) :
    List.Sublist (t.exported ++ t.queue) (t.ended.filter p.onEnd) ∧
    ∀ l : List Span, t.opened = true → t.queue.length + (l.filter p.onEnd).length ≤ 2048 →
      (l.foldl TraceSys.endSpan t).flush.exported = t.exported ++ t.queue ++ l.filter p.onEnd := by
  have inv : t.proc = p ∧ List.Sublist (t.exported ++ t.queue) (t.ended.filter p.onEnd) := by
    induction h with
    | refl => exact ⟨rfl, by simp [TraceSys.init]⟩
    | step _ hs ih =>
      obtain ⟨h1, h2⟩ := ih
      cases hs with
      | endSpan s =>
        refine ⟨h1, ?_⟩
        simp only [TraceSys.endSpan, List.filter_append, h1]
        cases hp : p.onEnd s with
        | false => simpa [hp] using h2
        | true =>
          simp only [Bool.true_and, List.filter_cons, hp, if_true, List.filter_nil]
          split
          · rw [← List.append_assoc]
            exact List.Sublist.append h2 (List.Sublist.refl _)
          · exact h2.trans (List.sublist_append_left _ _)
      | flush =>
        refine ⟨h1, ?_⟩
        simp only [TraceSys.flush]
        split
        · simpa using h2
        · simpa using (List.sublist_append_left _ _).trans h2
      | shutdown => exact ⟨h1, h2⟩
  refine ⟨inv.2, ?_⟩
  have hp := inv.1
  clear h inv
  intro l
  induction l generalizing t with
  | nil => intro ho _; simp [TraceSys.flush, ho]
  | cons s l ih =>
    intro ho hl
    rw [List.foldl_cons]
    have e := ih (t := t.endSpan s) hp ho
    cases hs : p.onEnd s with
    | false =>
      have q : (t.endSpan s).queue = t.queue := by simp [TraceSys.endSpan, hp, hs]
      rw [q] at e
      rw [List.filter_cons, hs] at hl ⊢
      simpa [TraceSys.endSpan] using e (by simpa using hl)
    | true =>
      rw [List.filter_cons, hs] at hl ⊢
      simp only [if_true, List.length_cons] at hl
      have q : (t.endSpan s).queue = t.queue ++ [s] := by
        simp only [TraceSys.endSpan, hp, hs, Bool.true_and]
        rw [if_pos (by simp; omega)]
      rw [q] at e
      rw [e (by simp; omega)]
      simp [TraceSys.endSpan]

/-- Nothing is exported any more after the shutdown. -/
theorem trace_closed {a b : TraceSys} (h : TraceSteps a b) (ho : a.opened = false) :
    b.opened = false ∧ b.exported = a.exported := by
  induction h with
  | refl => exact ⟨ho, rfl⟩
  | step _ hs ih =>
    obtain ⟨h1, h2⟩ := ih
    cases hs with
    | endSpan s => exact ⟨h1, h2⟩
    | flush => exact ⟨h1, by simp [TraceSys.flush, h1, h2]⟩
    | shutdown => exact ⟨rfl, h2⟩

/-- **C94** (the English property does not hold). Selected spans that ended since the last flush are lost when the process
is stopped in an orderly way: shutting down tracing does not export them, and nothing later does. -/
theorem C94_lost_counterexample {p : SpanProc} {s : Span} (hs : p.onEnd s = true) :
    ∃ t, TraceSteps (.init p) t ∧ s ∈ t.ended.filter p.onEnd ∧ ∀ t', TraceSteps t.shutdown t' → s ∉ t'.exported := by
  refine ⟨(TraceSys.init p).endSpan s, .step (.refl _) (.endSpan _ s), by simp [TraceSys.endSpan, hs], ?_⟩
  intro t' h
  rw [(trace_closed h rfl).2]
  simp [TraceSys.shutdown, TraceSys.endSpan, TraceSys.init]

/-- There are such filters and spans: a pattern that matches everything but `[1]`, and at least 10 ns. -/
example : ∃ p, newTraceProvider (fun _ => some fun n => n != [1]) ⟨[46], some (some 10)⟩ = some p ∧
    p.onEnd ⟨[2], 0, 10⟩ = true ∧ p.onEnd ⟨[2], 0, 9⟩ = false ∧ p.onEnd ⟨[1], 0, 10⟩ = false :=
  ⟨_, rfl, by decide, by decide, by decide⟩

/-- Tracing that has just been set up exports: the first flush writes what was selected, up to 2048 spans. -/
theorem C94_first_flush {p : SpanProc} (l : List Span) (hl : (l.filter p.onEnd).length ≤ 2048) :
    (l.foldl TraceSys.endSpan (.init p)).flush.exported = l.filter p.onEnd := by
  have := (C94_exported_partial (.refl (.init p))).2 l rfl (by simpa [TraceSys.init] using hl)
  simpa [TraceSys.init] using this

/-- With 2048 spans queued (and no earlier), a selected span is lost: no flush exports it, unless it ends again. -/
theorem C94_queue_full {p : SpanProc} {t : TraceSys} (h : TraceSteps (.init p) t) {s : Span} (hs : p.onEnd s = true) :
    t.queue.length ≤ 2048 ∧
    (t.queue.length = 2048 → (t.endSpan s).queue = t.queue ∧ (t.endSpan s).flush.exported = t.flush.exported) ∧
    (t.queue.length < 2048 → (t.endSpan s).queue = t.queue ++ [s]) := by
  have inv : t.proc = p ∧ t.queue.length ≤ 2048 := by
    induction h with
    | refl => exact ⟨rfl, by simp [TraceSys.init]⟩
    | step _ hs ih =>
      cases hs with
      | endSpan s =>
        refine ⟨ih.1, ?_⟩
        simp only [TraceSys.endSpan]
        split
        · rename_i hc
          simp at hc
          simp
          omega
        · exact ih.2
      | flush => exact ⟨ih.1, by simp [TraceSys.flush]⟩
      | shutdown => exact ih
  refine ⟨inv.2, fun hq => ?_, fun hq => ?_⟩
  · have : (t.endSpan s).queue = t.queue := by simp [TraceSys.endSpan, hq]
    exact ⟨this, by simp only [TraceSys.flush, this]; rfl⟩
  · simp [TraceSys.endSpan, inv.1, hs, hq]

/-- There are such states. -/
example : ∃ t, TraceSteps (.init .batch) t ∧ t.queue.length = 2048 := by
  have : ∀ n ≤ 2048, ∃ t, TraceSteps (.init .batch) t ∧ t.queue.length = n := by
    intro n
    induction n with
    | zero => exact fun _ => ⟨_, .refl _, rfl⟩
    | succ n ih =>
      intro hn
      obtain ⟨t, h, hl⟩ := ih (by omega)
      refine ⟨t.endSpan ⟨[2], 0, 10⟩, h.step (.endSpan ..), ?_⟩
      rw [(C94_queue_full h rfl).2.2 (by omega), List.length_append, hl]
      rfl
  exact this _ (Nat.le_refl _)

end Verif
