import Verif.Model.Prepared
/-!
# Properties of the prepared-statement cache: C44, C67
-/

namespace Verif

/-- Invariant. While open, the cache is exactly the log of preparations and nothing is closed; afterwards the cache is
empty and exactly the prepared statements are closed. -/
structure PInv (p : PSys) : Prop where
  nodup : (p.prepared.map (·.1)).Nodup
  ids : ∀ (i : Nat) (x : Bytes × Nat), p.prepared[i]? = some x → x.2 = i
  open_ : p.opened = true → p.cache = p.prepared ∧ p.closedStmts = []
  shut : p.opened = false → p.cache = [] ∧ p.closedStmts = p.prepared.map (·.2)
  calls : ∀ q s, .have_ q s ∈ p.calls → (q, s) ∈ p.prepared
  answers : ∀ q a, (q, a) ∈ p.answers →
    match a with
    | .executed s => (q, s) ∈ p.prepared
    | .stmtClosed s => (q, s) ∈ p.prepared ∧ p.opened = false
    | .dbClosed => p.opened = false
    | .failed => True

theorem PInv.init : PInv PSys.init := by
  refine ⟨?_, ?_, ?_, ?_, ?_, ?_⟩ <;> simp [PSys.init]

theorem lookup_some {p : PSys} {q : Bytes} {s : Nat} (h : p.lookup q = some s) : (q, s) ∈ p.cache := by
  unfold PSys.lookup at h
  cases hf : p.cache.find? fun x => x.1 == q with
  | none => rw [hf] at h; cases h
  | some x =>
    rw [hf] at h
    have h1 := List.mem_of_find?_eq_some hf
    have h2 : x.1 = q := by simpa using List.find?_some hf
    have h3 : x.2 = s := by simpa using h
    rw [← h2, ← h3]; exact h1

theorem lookup_none {p : PSys} {q : Bytes} (h : p.lookup q = none) : q ∉ p.cache.map (·.1) := by
  unfold PSys.lookup at h
  cases hf : p.cache.find? fun x => x.1 == q with
  | some x => rw [hf] at h; cases h
  | none =>
    intro hm
    obtain ⟨x, hx, he⟩ := List.mem_map.1 hm
    have := List.find?_eq_none.1 hf x hx
    simp [he] at this

theorem PInv.cache_sub {p : PSys} (h : PInv p) : ∀ x ∈ p.cache, x ∈ p.prepared := by
  intro x hx
  cases ho : p.opened with
  | true => rw [(h.open_ ho).1] at hx; exact hx
  | false => rw [(h.shut ho).1] at hx; cases hx

theorem mem_swap_call {pre post : List PCall} {c d : PCall} {l : List PCall} (hl : l = pre ++ c :: post) {x : PCall}
    (hx : x ∈ pre ++ d :: post) : x = d ∨ x ∈ l := by
  rw [hl]
  simp only [List.mem_append, List.mem_cons] at hx ⊢
  rcases hx with h | h | h
  · exact Or.inr (Or.inl h)
  · exact Or.inl h
  · exact Or.inr (Or.inr (Or.inr h))

theorem mem_drop_call {pre post : List PCall} {c : PCall} {l : List PCall} (hl : l = pre ++ c :: post) {x : PCall}
    (hx : x ∈ pre ++ post) : x ∈ l := by
  rw [hl]
  simp only [List.mem_append, List.mem_cons] at hx ⊢
  rcases hx with h | h
  · exact Or.inl h
  · exact Or.inr (Or.inr h)

theorem PInv.step {p p' : PSys} (h : PInv p) (hs : PStep p p') : PInv p' := by
  cases hs with
  | call q =>
    refine ⟨h.nodup, h.ids, h.open_, h.shut, ?_, h.answers⟩
    intro q' s hm
    rcases List.mem_append.1 hm with hm | hm
    · exact h.calls q' s hm
    · simp at hm
  | fast pre post q hc =>
    unfold PSys.fast
    split
    · rename_i s hl
      refine ⟨h.nodup, h.ids, h.open_, h.shut, ?_, h.answers⟩
      intro q' s' hm
      rcases mem_swap_call hc hm with he | hm
      · cases he; exact h.cache_sub _ (lookup_some hl)
      · exact h.calls q' s' hm
    · refine ⟨h.nodup, h.ids, h.open_, h.shut, ?_, h.answers⟩
      intro q' s' hm
      rcases mem_swap_call hc hm with he | hm
      · cases he
      · exact h.calls q' s' hm
  | slow pre post q ok hc =>
    unfold PSys.slow
    split
    · rename_i ho
      refine ⟨h.nodup, h.ids, h.open_, h.shut, fun q' s' hm => h.calls q' s' (mem_drop_call hc hm), ?_⟩
      intro q' a hm
      rcases List.mem_append.1 hm with hm | hm
      · exact h.answers q' a hm
      · simp only [List.mem_singleton, Prod.mk.injEq] at hm
        rw [hm.2]; exact ho
    · rename_i ho
      have ho : p.opened = true := by simpa using ho
      obtain ⟨hcache, hclosed⟩ := h.open_ ho
      split
      · rename_i s hl
        refine ⟨h.nodup, h.ids, h.open_, h.shut, ?_, h.answers⟩
        intro q' s' hm
        rcases mem_swap_call hc hm with he | hm
        · cases he; exact h.cache_sub _ (lookup_some hl)
        · exact h.calls q' s' hm
      · rename_i hl
        split
        · refine ⟨?_, ?_, ?_, ?_, ?_, ?_⟩
          · show ((p.prepared ++ [(q, p.prepared.length)]).map (·.1)).Nodup
            rw [List.map_append, List.nodup_append]
            refine ⟨h.nodup, by simp, ?_⟩
            intro a ha b hb he
            have := lookup_none hl
            rw [hcache] at this
            simp only [List.map_cons, List.map_nil, List.mem_singleton] at hb
            rw [he, hb] at ha
            exact this ha
          · intro i x hx
            have hx' : (p.prepared ++ [(q, p.prepared.length)])[i]? = some x := hx
            rw [List.getElem?_append] at hx'
            split at hx'
            · exact h.ids i x hx'
            · rename_i hi
              have : i = p.prepared.length := by
                by_cases hz : i - p.prepared.length = 0
                · omega
                · rw [List.getElem?_eq_none (by simp; omega)] at hx'; cases hx'
              subst this
              simp at hx'
              rw [← hx']
          · intro _
            exact ⟨by show p.cache ++ _ = p.prepared ++ _; rw [hcache], hclosed⟩
          · intro hf
            have hf' : p.opened = false := hf
            rw [ho] at hf'; cases hf'
          · intro q' s' hm
            show (q', s') ∈ p.prepared ++ _
            rcases mem_swap_call hc hm with he | hm
            · cases he; simp
            · exact List.mem_append_left _ (h.calls q' s' hm)
          · intro q' a hm
            have := h.answers q' a hm
            cases a with
            | executed s => exact List.mem_append_left _ this
            | stmtClosed s => exact ⟨List.mem_append_left _ this.1, this.2⟩
            | dbClosed => exact this
            | failed => trivial
        · refine ⟨h.nodup, h.ids, h.open_, h.shut, fun q' s' hm => h.calls q' s' (mem_drop_call hc hm), ?_⟩
          intro q' a hm
          rcases List.mem_append.1 hm with hm | hm
          · exact h.answers q' a hm
          · simp only [List.mem_singleton, Prod.mk.injEq] at hm
            rw [hm.2]; trivial
  | run pre post q s hc =>
    have hmem : (q, s) ∈ p.prepared := h.calls q s (by rw [hc]; simp)
    refine ⟨h.nodup, h.ids, h.open_, h.shut, fun q' s' hm => h.calls q' s' (mem_drop_call hc hm), ?_⟩
    intro q' a hm
    rcases List.mem_append.1 hm with hm | hm
    · exact h.answers q' a hm
    · simp only [List.mem_singleton, Prod.mk.injEq] at hm
      rw [hm.2, hm.1]
      split
      · rename_i a s' he
        split at he
        · cases he
        · cases he; exact hmem
      · rename_i a s' he
        split at he
        · rename_i hcl
          cases he
          refine ⟨hmem, ?_⟩
          show p.opened = false
          cases ho : p.opened with
          | false => rfl
          | true => rw [(h.open_ ho).2] at hcl; cases hcl
        · cases he
      · rename_i he; split at he <;> cases he
      · trivial
  | close =>
    unfold PSys.close
    split
    · rename_i ho
      obtain ⟨hcache, hclosed⟩ := h.open_ ho
      refine ⟨h.nodup, h.ids, nofun, ?_, h.calls, ?_⟩
      · intro _
        exact ⟨rfl, by show p.closedStmts ++ p.cache.map (·.2) = _; rw [hclosed, hcache]; rfl⟩
      · intro q' a hm
        have := h.answers q' a hm
        cases a with
        | executed s => exact this
        | stmtClosed s => exact ⟨this.1, rfl⟩
        | dbClosed => rfl
        | failed => trivial
    · exact ⟨h.nodup, h.ids, h.open_, h.shut, h.calls, h.answers⟩
  | direct =>
    unfold PSys.direct
    split
    · exact h
    · exact ⟨h.nodup, h.ids, h.open_, h.shut, h.calls, h.answers⟩

theorem PReachable.inv {p : PSys} (h : PReachable p) : PInv p := by
  induction h with
  | init => exact PInv.init
  | step _ hs ih => exact ih.step hs

/-! ## C44 -/

/-- For every interleaving of any number of calls, no query text is prepared twice successfully. -/
theorem C44_prepared_once {p : PSys} (h : PReachable p) : (p.prepared.map (·.1)).Nodup := h.inv.nodup

/-- A call only ever executes the statement that was prepared for its own query text, and distinct texts have distinct
statements. -/
theorem C44_own_statement {p : PSys} (h : PReachable p) {q : Bytes} {s : Nat} (ha : (q, .executed s) ∈ p.answers) :
    (q, s) ∈ p.prepared ∧ ∀ q', (q', s) ∈ p.prepared → q' = q := by
  have hi := h.inv
  have h1 : (q, s) ∈ p.prepared := hi.answers q _ ha
  refine ⟨h1, fun q' h2 => ?_⟩
  obtain ⟨i, hi1, he1⟩ := List.getElem_of_mem h1
  obtain ⟨j, hj1, he2⟩ := List.getElem_of_mem h2
  have e1 := hi.ids i (q, s) (by rw [List.getElem?_eq_getElem hi1, he1])
  have e2 := hi.ids j (q', s) (by rw [List.getElem?_eq_getElem hj1, he2])
  simp only at e1 e2
  subst e1
  subst e2
  rw [he1] at he2
  simpa using (congrArg Prod.fst he2).symm

/-- Once `Close` has run, every statement ever prepared has been closed, exactly once, and the cache is empty; before,
none has been closed. -/
theorem C44_close_releases {p : PSys} (h : PReachable p) :
    (p.opened = false → p.cache = [] ∧ p.closedStmts = p.prepared.map (·.2) ∧ p.closedStmts.Nodup) ∧
    (p.opened = true → p.closedStmts = []) := by
  have hi := h.inv
  refine ⟨fun ho => ?_, fun ho => (hi.open_ ho).2⟩
  obtain ⟨h1, h2⟩ := hi.shut ho
  refine ⟨h1, h2, ?_⟩
  rw [h2]
  rw [List.nodup_iff_pairwise_ne, List.pairwise_iff_getElem]
  intro i j hi' hj' hlt
  simp only [List.getElem_map]
  simp only [List.length_map] at hi' hj'
  rw [hi.ids i _ (List.getElem?_eq_getElem hi'), hi.ids j _ (List.getElem?_eq_getElem hj')]
  omega

/-- After `Close` nothing is prepared or executed any more: every later step leaves the log of preparations as it is, and
the only new answers are errors. -/
theorem C44_refused_after_close {p p' : PSys} (h : PReachable p) (ho : p.opened = false) (hs : PStep p p') :
    p'.opened = false ∧ p'.prepared = p.prepared ∧
    ∀ q s, (q, .executed s) ∈ p'.answers → (q, .executed s) ∈ p.answers := by
  have hi := h.inv
  obtain ⟨hcache, hclosed⟩ := hi.shut ho
  cases hs with
  | call q => exact ⟨ho, rfl, fun _ _ h => h⟩
  | fast pre post q hc =>
    unfold PSys.fast
    split <;> exact ⟨ho, rfl, fun _ _ h => h⟩
  | slow pre post q ok hc =>
    unfold PSys.slow
    rw [if_pos ho]
    refine ⟨ho, rfl, fun q' s' hm => ?_⟩
    rcases List.mem_append.1 hm with hm | hm
    · exact hm
    · simp at hm
  | run pre post q s hc =>
    have hmem : (q, s) ∈ p.prepared := hi.calls q s (by rw [hc]; simp)
    have : s ∈ p.closedStmts := by rw [hclosed]; exact List.mem_map.2 ⟨_, hmem, rfl⟩
    refine ⟨ho, rfl, fun q' s' hm => ?_⟩
    unfold PSys.run at hm
    rw [if_pos this] at hm
    rcases List.mem_append.1 hm with hm | hm
    · exact hm
    · simp at hm
  | close =>
    unfold PSys.close
    rw [if_neg (by simp [ho])]
    exact ⟨ho, rfl, fun _ _ h => h⟩
  | direct =>
    unfold PSys.direct
    rw [if_neg (by simp [ho])]
    exact ⟨ho, rfl, fun _ _ h => h⟩

/-- Two callers race to prepare the same text: both miss the cache, one prepares, the other finds the result; after
`Close` a third one, already holding the statement, gets an error, and a fourth is refused. -/
def demoPrepared : PSys :=
  let p : PSys := { PSys.init with calls := [PCall.start [1]] }
  let p : PSys := { p with calls := p.calls ++ [PCall.start [1]] }
  let p := p.fast [] [.start [1]] [1]
  let p := p.fast [.slow [1]] [] [1]
  let p := p.slow [] [.slow [1]] [1] true
  let p := p.slow [.have_ [1] 0] [] [1] true
  let p := p.run [] [.have_ [1] 0] [1] 0
  let p := p.close
  let p := p.run [] [] [1] 0
  let p : PSys := { p with calls := [PCall.start [1]] }
  let p := p.fast [] [] [1]
  p.slow [] [] [1] true

theorem demoPrepared_reachable : PReachable demoPrepared :=
  .step (.step (.step (.step (.step (.step (.step (.step (.step (.step (.step (.step .init (.call _ [1]))
    (.call _ [1])) (.fast _ [] _ _ rfl)) (.fast _ [_] _ _ rfl)) (.slow _ [] _ _ true rfl)) (.slow _ [_] _ _ true rfl))
    (.run _ [] _ _ _ rfl)) (.close _)) (.run _ [] _ _ _ rfl)) (.call _ [1])) (.fast _ [] _ _ rfl))
    (.slow _ [] _ _ true rfl)

example : demoPrepared.prepared = [([1], 0)] ∧ demoPrepared.opened = false ∧
    demoPrepared.answers = [([1], .executed 0), ([1], .stmtClosed 0), ([1], .dbClosed)] := by decide

/-! ## C67 Using the database after Close fails cleanly -/

/-- False: after `Close`, a second `Close`, or `BeginTx`/`Conn`/`PrepareContext`, dereferences nil. -/
theorem C67_panic_counterexample :
    (∃ p, PReachable p ∧ p.panicked = false ∧ p.opened = false ∧ PStep p p.close ∧ p.close.panicked = true) ∧
    (∃ p, PReachable p ∧ p.panicked = false ∧ p.opened = false ∧ PStep p p.direct ∧ p.direct.panicked = true) :=
  ⟨⟨PSys.init.close, .step .init (.close _), rfl, rfl, .close _, rfl⟩,
   ⟨PSys.init.close, .step .init (.close _), rfl, rfl, .direct _, rfl⟩⟩

/-- What does hold: `ExecContext` and `QueryContext` never dereference nil, whenever they run; and `Close` does not the
first time. Missing: `BeginTx`, `Conn`, `PrepareContext` and a second `Close`. -/
theorem C67_exec_query_partial {p p' : PSys} (hs : PStep p p') (hp : p.panicked = false)
    (h : p'.panicked = true) : p.opened = false ∧ (p' = p.close ∨ p' = p.direct) := by
  cases hs with
  | call q => rw [show PSys.panicked _ = p.panicked from rfl, hp] at h; cases h
  | fast pre post q hc =>
    unfold PSys.fast at h
    split at h <;> (rw [show PSys.panicked _ = p.panicked from rfl, hp] at h; cases h)
  | slow pre post q ok hc =>
    unfold PSys.slow at h
    split at h
    · rw [show PSys.panicked _ = p.panicked from rfl, hp] at h; cases h
    · split at h
      · rw [show PSys.panicked _ = p.panicked from rfl, hp] at h; cases h
      · split at h <;> (rw [show PSys.panicked _ = p.panicked from rfl, hp] at h; cases h)
  | run pre post q s hc => rw [show (p.run pre post q s).panicked = p.panicked from rfl, hp] at h; cases h
  | close =>
    refine ⟨?_, Or.inl rfl⟩
    unfold PSys.close at h
    split at h
    · rw [show PSys.panicked _ = p.panicked from rfl, hp] at h; cases h
    · rename_i ho; simpa using ho
  | direct =>
    refine ⟨?_, Or.inr rfl⟩
    unfold PSys.direct at h
    split at h
    · rw [hp] at h; cases h
    · rename_i ho; simpa using ho

/-- A step from a closed cache that does not panic. -/
example : PStep PSys.init.close { PSys.init.close with calls := [.start [1]] } ∧ PSys.init.close.opened = false :=
  ⟨.call _ [1], rfl⟩

end Verif
