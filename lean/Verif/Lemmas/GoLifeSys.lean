import Verif.Lemmas.GoLife
/-!
# Goroutines of the backend's life: positions and invariant
-/

namespace Verif.Go

/-- Where a goroutine is. -/
inductive LPos where
  | sLock | sRead | sCreate | sCtx
  | sWatch (g : Nat) | sRev (g : Nat) | sPoll (g : Nat) (n : Int) | sAddTwo (g : Nat) | sGoComp (g : Nat) | sGoPoll (g : Nat)
  | sAbort (g : Nat) (e : ApiErr) | sAddOne (g : Nat) | sGoTtl (g : Nat) | sKeep (g : Nat) | sStarted | sExit (v : V)
  | tLock (c : Bool) | tRead (c : Bool) | tCall (c : Bool) | tDrop (c : Bool) | tClear (c : Bool) | tUnlock (c : Bool) | tWait (c : Bool)
  /-- `Driver.Close`; the end of a call. `leak`: the mutex was left locked -/
  | close (leak : Bool)
  | fin (leak : Bool) (v : V)
  /-- goroutines -/
  | comp (g n : Nat) | compact (g n : Nat) | poll (g : Nat) | ttl (g : Nat) | work (g : Nat) | last | gone

/-- What is left to do. -/
def LPos.tree (N : Nat) : LPos → Lf
  | .sLock => startF N | .sRead => startReadF N | .sCreate => createF N | .sCtx => ctxF N
  | .sWatch g => watchF N g | .sRev g => revF N g | .sPoll g n => setPollF N g n | .sAddTwo g => addTwoF N g | .sGoComp g => goCompF N g
  | .sGoPoll g => goPollF g | .sAbort g e => abortF g e | .sAddOne g => addOneF g | .sGoTtl g => goTtlF g | .sKeep g => keepF g | .sStarted => startedF
  | .sExit v => exitF v
  | .tLock c => stopF c | .tRead c => stopReadF c | .tCall c => callF c | .tDrop c => dropF c | .tClear c => clearF c | .tUnlock c => stopUnlockF c
  | .tWait c => waitF c
  | .close _ => afterF true
  | .fin _ v => .ret [v]
  | .comp g n => compF g n
  | .compact g n => .ask .doCompact (compF g n) fun _ => compF g n
  | .poll g => .poll g lastF
  | .ttl g => .ttl g lastF
  | .work g => .work g lastF
  | .last => lastF
  | .gone => .ret []

/-- Is it a call? -/
def LPos.isCall : LPos → Bool
  | .comp _ _ | .compact _ _ | .poll _ | .ttl _ | .work _ | .last | .gone => false
  | _ => true

/-- Does it hold the mutex? -/
def LPos.holds : LPos → Bool
  | .sRead | .sCreate | .sCtx | .sWatch _ | .sRev _ | .sPoll _ _ | .sAddTwo _ | .sGoComp _ | .sGoPoll _ | .sAbort _ _ | .sAddOne _ | .sGoTtl _ | .sKeep _
  | .sStarted | .sExit _ | .tRead _ | .tCall _ | .tDrop _ | .tClear _ | .tUnlock _ => true
  | .close l | .fin l _ => l
  | _ => false

/-- What it owes to the wait group. -/
def LPos.owes : LPos → Nat
  | .sGoComp _ => 2
  | .sGoPoll _ | .sGoTtl _ | .comp _ _ | .compact _ _ | .poll _ | .ttl _ | .work _ | .last => 1
  | _ => 0

/-- The context it has made and not handed over. -/
def LPos.fresh : LPos → Option Nat
  | .sWatch g | .sRev g | .sPoll g _ | .sAddTwo g | .sGoComp g | .sGoPoll g | .sAbort g _ | .sAddOne g | .sGoTtl g | .sKeep g => some g
  | _ => none

/-- After `Stop` without the wait. -/
def afterPos (leak : Bool) : Bool → LPos
  | false => .fin leak .nil
  | true => .close leak

/-- One action. -/
def LPos.next (N : Nat) (c : LfChoice) : LPos → LfSh → Option (LPos × LfSh × List LPos)
  | .sLock, s => bif s.locked then none else some (.sRead, { s with locked := true }, [])
  | .sRead, s => some (bif s.started then .sExit .nil else .sCreate, s, [])
  | .sCreate, s => match c.err with | none => some (.sCtx, s, []) | some e => some (.sExit (lifeErrV e), s, [])
  | .sCtx, s => some (.sWatch s.made, { s with made := s.made + 1, alive := s.made :: s.alive }, [])
  | .sWatch g, s => match c.err with | none => some (.sRev g, s, []) | some e => some (.sAbort g e, s, [])
  | .sRev g, s => match c.err with | none => some (.sPoll g c.n, s, []) | some e => some (.sAbort g e, s, [])
  | .sPoll g n, s => some (.sAddTwo g, { s with poll := n }, [])
  | .sAddTwo g, s => some (.sGoComp g, { s with wg := s.wg + 2 }, [])
  | .sGoComp g, s => some (.sGoPoll g, s, [.comp g N])
  | .sGoPoll g, s => some (.sAddOne g, s, [.poll g])
  | .sAbort g e, s => some (.sExit (lifeErrV e), s.cancel g, [])
  | .sAddOne g, s => some (.sGoTtl g, { s with wg := s.wg + 1 }, [])
  | .sGoTtl g, s => some (.sKeep g, s, [.ttl g])
  | .sKeep g, s => some (.sStarted, { s with stop := some g }, [])
  | .sStarted, s => some (.sExit .nil, { s with started := true }, [])
  | .sExit v, s => bif s.locked then some (.fin false v, { s with locked := false }, []) else none
  | .tLock b, s => bif s.locked then none else some (.tRead b, { s with locked := true }, [])
  | .tRead b, s => some (bif s.started then .tCall b else afterPos true b, s, [])
  | .tCall b, s => match s.stop with | some g => some (.tDrop b, s.cancel g, []) | none => none
  | .tDrop b, s => some (.tClear b, { s with stop := none }, [])
  | .tClear b, s => some (.tUnlock b, { s with started := false }, [])
  | .tUnlock b, s => bif s.locked then some (.tWait b, { s with locked := false }, []) else none
  | .tWait b, s => match s.wg with | 0 => some (afterPos false b, s, []) | _ + 1 => none
  | .close l, s => match c.err with | none => some (.fin l .nil, s, []) | some e => some (.fin l (lifeErrV e), s, [])
  | .fin _ _, _ => none
  | .comp _ 0, _ => none
  | .comp g (n + 1), s => bif c.first then (if g ∈ s.alive then none else some (.last, s, [])) else some (.compact g n, s, [])
  | .compact g n, s => some (.comp g n, s, [])
  | .poll _, s => some (.last, s, [])
  | .ttl g, s => some (.last, { s with wg := s.wg + 1 }, [.work g])
  | .work _, s => some (.last, s, [])
  | .last, s => match s.wg with | 0 => none | n + 1 => some (.gone, { s with wg := n }, [])
  | .gone, _ => none

/-- Would the action panic? -/
def LPos.panics : LPos → LfSh → Bool
  | .sExit _, s | .tUnlock _, s => !s.locked
  | .tCall _, s => s.stop.isNone
  | .last, s => s.wg == 0
  | _, _ => false

theorem act_tree (N : Nat) (c : LfChoice) (p : LPos) (s : LfSh) (h : p.panics s = false) :
    (p.tree N).act c s = (p.next N c s).map fun r => (r.1.tree N, r.2.1, r.2.2.map (LPos.tree N)) := by
  cases p with
  | sLock => unfold LPos.next; cases hl : s.locked <;> simp only [LPos.tree, startF, Lf.act, hl] <;> rfl
  | sRead => unfold LPos.next; cases hl : s.started <;> simp only [LPos.tree, startReadF, Lf.act, hl] <;> rfl
  | sCreate => unfold LPos.next; cases he : c.err <;> simp only [LPos.tree, createF, Lf.act, he] <;> rfl
  | sWatch g => unfold LPos.next; cases he : c.err <;> simp only [LPos.tree, watchF, Lf.act, he] <;> rfl
  | sRev g => unfold LPos.next; cases he : c.err <;> simp only [LPos.tree, revF, Lf.act, he] <;> rfl
  | sExit v =>
    have hl : s.locked = true := by simpa [LPos.panics] using h
    unfold LPos.next; simp only [LPos.tree, exitF, Lf.act, hl]; rfl
  | tLock b => unfold LPos.next; cases hl : s.locked <;> simp only [LPos.tree, stopF, Lf.act, hl] <;> rfl
  | tRead b => unfold LPos.next; cases hl : s.started <;> cases b <;> simp only [LPos.tree, stopReadF, Lf.act, hl] <;> rfl
  | tCall b =>
    cases hs : s.stop with
    | none => simp [LPos.panics, hs] at h
    | some g => unfold LPos.next; simp only [LPos.tree, callF, Lf.act, hs]; rfl
  | tUnlock b =>
    have hl : s.locked = true := by simpa [LPos.panics] using h
    unfold LPos.next; simp only [LPos.tree, stopUnlockF, Lf.act, hl]; rfl
  | tWait b => unfold LPos.next; cases hw : s.wg <;> cases b <;> simp only [LPos.tree, waitF, Lf.act, hw] <;> rfl
  | close l => unfold LPos.next; cases he : c.err <;> simp only [LPos.tree, afterF, Lf.act, he] <;> rfl
  | comp g n =>
    cases n with
    | zero => rfl
    | succ n =>
      unfold LPos.next
      cases hc : c.first
      · simp only [LPos.tree, compF, Lf.act, hc]; rfl
      · by_cases hg : g ∈ s.alive
        · simp only [LPos.tree, compF, Lf.act, hc, hg]; rfl
        · simp only [LPos.tree, compF, Lf.act, hc, hg]; rfl
  | compact g n => unfold LPos.next; cases he : c.err <;> simp only [LPos.tree, Lf.act, he] <;> rfl
  | last =>
    cases hw : s.wg with
    | zero => simp [LPos.panics, hw] at h
    | succ n => unfold LPos.next; simp only [LPos.tree, lastF, Lf.act, hw]; rfl
  | _ => rfl

/-- The fields when nobody changes them. -/
def Clean (s : LfSh) : Prop := s.started = s.stop.isSome

/-- What a position says about the fields. -/
def LPos.rel : LPos → LfSh → Prop
  | .sCreate, s | .sCtx, s | .sWatch _, s | .sRev _, s | .sPoll _ _, s | .sAddTwo _, s | .sGoComp _, s | .sGoPoll _, s | .sAbort _ _, s | .sAddOne _, s
  | .sGoTtl _, s | .sKeep _, s => s.started = false ∧ s.stop = none
  | .sStarted, s => s.started = false ∧ s.stop.isSome = true
  | .tCall _, s => s.started = true ∧ s.stop.isSome = true
  | .tDrop _, s => s.started = true ∧ ∀ g, s.stop = some g → g ∉ s.alive
  | .tClear _, s => s.stop = none
  | p, s => p.holds = true → Clean s

/-- The invariant. -/
structure LInv (ps : List LPos) (s : LfSh) : Prop where
  mutex : (ps.map fun p => p.holds.toNat).sum = s.locked.toNat
  group : (ps.map LPos.owes).sum = s.wg
  fields : ∀ p ∈ ps, p.rel s
  free : s.locked = false → Clean s
  told : ∀ g ∈ s.alive, s.stop = some g ∨ ∃ p ∈ ps, p.fresh = some g
  made : ∀ g ∈ s.alive, g < s.made

theorem fresh_holds {p : LPos} {g : Nat} (h : p.fresh = some g) : p.holds = true := by
  cases p <;> first | rfl | cases h

/-- Nobody else holds the mutex. -/
theorem others_free {pre post : List LPos} {p : LPos} {b : Bool}
    (h : ((pre ++ p :: post).map fun p => p.holds.toNat).sum = b.toNat) (hp : p.holds = true) :
    b = true ∧ ∀ q ∈ pre ++ post, q.holds = false := by
  have hb : b = true := by
    cases b with
    | true => rfl
    | false => simp [hp] at h
  subst hb
  refine ⟨rfl, fun q hq => ?_⟩
  have h0 : (pre.map fun p => p.holds.toNat).sum = 0 ∧ (post.map fun p => p.holds.toNat).sum = 0 := by
    simp [hp] at h
    omega
  have : ∀ (l : List LPos), (l.map fun p => p.holds.toNat).sum = 0 → ∀ q ∈ l, q.holds = false := by
    intro l hl q hq
    induction l with
    | nil => cases hq
    | cons r l ih =>
      rw [List.map_cons, List.sum_cons] at hl
      rcases List.mem_cons.1 hq with rfl | hq
      · cases hh : q.holds
        · rfl
        · rw [hh] at hl; simp at hl
      · exact ih (by omega) hq
  rcases List.mem_append.1 hq with hq | hq
  · exact this pre h0.1 q hq
  · exact this post h0.2 q hq

theorem rel_free {q : LPos} {s : LfSh} (h : q.holds = false) : q.rel s := by
  cases q <;> first | (have h2 : true = false := h; cases h2; done) | (intro h'; rw [h] at h'; cases h')

theorem zero_free {ps : List LPos} (h : (ps.map fun p => p.holds.toNat).sum = 0) : ∀ q ∈ ps, q.holds = false := by
  induction ps with
  | nil => exact fun _ hq => nomatch hq
  | cons r l ih =>
    rw [List.map_cons, List.sum_cons] at h
    intro q hq
    rcases List.mem_cons.1 hq with rfl | hq
    · cases hh : q.holds
      · rfl
      · rw [hh] at h; simp at h
    · exact ih (by omega) q hq

/-- What is left when the one that acts holds the mutex, or nobody does. -/
theorem inv_alone {pre post new : List LPos} {p p' : LPos} {s s' : LfSh} (h : LInv (pre ++ p :: post) s) (ha : p.holds = true ∨ s.locked = false)
    (h1 : p'.holds = s'.locked) (hn : ∀ q ∈ new, q.holds = false) (h2 : p'.owes + (new.map LPos.owes).sum + s.wg = p.owes + s'.wg)
    (h3 : p'.rel s') (hf : s'.locked = false → Clean s')
    (ht : (∀ g ∈ s.alive, s.stop = some g ∨ p.fresh = some g) → ∀ g ∈ s'.alive, s'.stop = some g ∨ p'.fresh = some g)
    (hm : (∀ g ∈ s.alive, g < s.made) → ∀ g ∈ s'.alive, g < s'.made) : LInv (pre ++ p' :: post ++ new) s' := by
  have hoth : ∀ q ∈ pre ++ post, q.holds = false := by
    rcases ha with ha | ha
    · exact (others_free h.mutex ha).2
    · have := zero_free (by have := h.mutex; rw [ha] at this; exact this)
      intro q hq
      refine this q ?_
      rcases List.mem_append.1 hq with hq | hq
      · exact List.mem_append_left _ hq
      · exact List.mem_append_right _ (List.mem_cons_of_mem _ hq)
  have hz : ∀ (l : List LPos), (∀ q ∈ l, q.holds = false) → (l.map fun p => p.holds.toNat).sum = 0 := by
    intro l hl
    induction l with
    | nil => rfl
    | cons r l ih =>
      rw [List.map_cons, List.sum_cons, ih fun q hq => hl q (List.mem_cons_of_mem _ hq), hl r (List.mem_cons_self ..)]
      rfl
  have hpre := hz pre fun q hq => hoth q (List.mem_append_left _ hq)
  have hpost := hz post fun q hq => hoth q (List.mem_append_right _ hq)
  have hnew := hz new hn
  refine ⟨?_, ?_, ?_, hf, ?_, hm h.made⟩
  · rw [← h1]
    simp only [List.map_append, List.map_cons, List.sum_append, List.sum_cons, hpre, hpost, hnew] <;> omega
  · have := h.group
    simp only [List.map_append, List.map_cons, List.sum_append, List.sum_cons] at this ⊢
    omega
  · intro q hq
    rcases List.mem_append.1 hq with hq | hq
    · rcases List.mem_append.1 hq with hq | hq
      · exact rel_free (hoth q (List.mem_append_left _ hq))
      · rcases List.mem_cons.1 hq with rfl | hq
        · exact h3
        · exact rel_free (hoth q (List.mem_append_right _ hq))
    · exact rel_free (hn q hq)
  · have ht' : ∀ g ∈ s.alive, s.stop = some g ∨ p.fresh = some g := by
      intro g hg
      rcases h.told g hg with h' | ⟨q, hq, hfr⟩
      · exact .inl h'
      · right
        rcases List.mem_append.1 hq with hq | hq
        · have := hoth q (List.mem_append_left _ hq); rw [fresh_holds hfr] at this; cases this
        · rcases List.mem_cons.1 hq with rfl | hq
          · exact hfr
          · have := hoth q (List.mem_append_right _ hq); rw [fresh_holds hfr] at this; cases this
    intro g hg
    rcases ht ht' g hg with h' | h'
    · exact .inl h'
    · exact .inr ⟨p', by simp, h'⟩

/-- What is left when only the wait group changes. -/
theorem inv_other {pre post new : List LPos} {p p' : LPos} {s : LfSh} {w : Nat} (h : LInv (pre ++ p :: post) s)
    (h1 : p'.holds = p.holds) (hn : ∀ q ∈ new, q.holds = false) (h2 : p'.owes + (new.map LPos.owes).sum + s.wg = p.owes + w)
    (h3 : p'.rel s) (hp : p.fresh = none) : LInv (pre ++ p' :: post ++ new) { s with wg := w } := by
  have hrel : ∀ q : LPos, q.rel s → q.rel { s with wg := w } := by intro q hq; cases q <;> exact hq
  have hz : ∀ (l : List LPos), (∀ q ∈ l, q.holds = false) → (l.map fun p => p.holds.toNat).sum = 0 := by
    intro l hl
    induction l with
    | nil => rfl
    | cons r l ih =>
      rw [List.map_cons, List.sum_cons, ih fun q hq => hl q (List.mem_cons_of_mem _ hq), hl r (List.mem_cons_self ..)]
      rfl
  refine ⟨?_, ?_, ?_, h.free, ?_, h.made⟩
  · have := h.mutex
    simp only [List.map_append, List.map_cons, List.sum_append, List.sum_cons, hz new hn, h1] at this ⊢
    omega
  · have := h.group
    simp only [List.map_append, List.map_cons, List.sum_append, List.sum_cons] at this ⊢
    omega
  · intro q hq
    rcases List.mem_append.1 hq with hq | hq
    · rcases List.mem_append.1 hq with hq | hq
      · exact hrel q (h.fields q (List.mem_append_left _ hq))
      · rcases List.mem_cons.1 hq with rfl | hq
        · exact hrel _ h3
        · exact hrel q (h.fields q (List.mem_append_right _ (List.mem_cons_of_mem _ hq)))
    · exact rel_free (hn q hq)
  · intro g hg
    rcases h.told g hg with h' | ⟨q, hq, hfr⟩
    · exact .inl h'
    · right
      rcases List.mem_append.1 hq with hq | hq
      · exact ⟨q, by simp [hq], hfr⟩
      · rcases List.mem_cons.1 hq with rfl | hq
        · rw [hp] at hfr; cases hfr
        · exact ⟨q, by simp [hq], hfr⟩

theorem inv_panics {pre post : List LPos} {p : LPos} {s : LfSh} (h : LInv (pre ++ p :: post) s) : p.panics s = false := by
  have hf := h.fields p (by simp)
  cases p with
  | sExit v => simp [LPos.panics, (others_free h.mutex rfl).1]
  | tUnlock b => simp [LPos.panics, (others_free h.mutex rfl).1]
  | tCall b => 
    have := hf.2
    cases hs : s.stop
    · rw [hs] at this; cases this
    · simp [LPos.panics, hs]
  | last =>
    have := h.group
    simp [LPos.owes] at this
    simp [LPos.panics]; omega
  | _ => rfl

theorem inv_next {N : Nat} {c : LfChoice} {pre post new : List LPos} {p p' : LPos} {s s' : LfSh} (h : LInv (pre ++ p :: post) s)
    (hn : p.next N c s = some (p', s', new)) : LInv (pre ++ p' :: post ++ new) s' := by
  have hf := h.fields p (by simp)
  cases p with
  | sLock =>
    dsimp only [LPos.next] at hn
    cases hl : s.locked
    · rw [hl] at hn
      cases hn
      refine inv_alone h (.inr hl) rfl (by simp) rfl (fun _ => h.free hl) (by simp) (fun h' g hg => ?_) (fun h' => h')
      rcases h' g hg with h' | h'
      · exact .inl h'
      · cases h'
    · rw [hl] at hn; cases hn
  | sRead =>
    dsimp only [LPos.next] at hn
    cases hl : s.started <;> rw [hl] at hn <;> cases hn
    · have hc : Clean s := hf rfl
      refine inv_alone h (.inl rfl) (others_free h.mutex rfl).1.symm (by simp) rfl ⟨hl, ?_⟩ h.free (fun h' => h') (fun h' => h')
      unfold Clean at hc; rw [hl] at hc
      cases hs : s.stop
      · rfl
      · rw [hs] at hc; cases hc
    · exact inv_alone h (.inl rfl) (others_free h.mutex rfl).1.symm (by simp) rfl hf h.free (fun h' => h') (fun h' => h')
  | sCreate =>
    dsimp only [LPos.next] at hn
    have hl := (others_free h.mutex rfl).1
    cases he : c.err <;> rw [he] at hn <;> cases hn
    · exact inv_alone h (.inl rfl) hl.symm (by simp) rfl hf h.free (fun h' => h') (fun h' => h')
    · exact inv_alone h (.inl rfl) hl.symm (by simp) rfl (fun _ => by unfold Clean; rw [hf.1, hf.2]; rfl) h.free (fun h' => h') (fun h' => h')
  | sCtx =>
    dsimp only [LPos.next] at hn
    have hl := (others_free h.mutex rfl).1
    cases hn
    refine inv_alone h (.inl rfl) hl.symm (by simp) rfl hf h.free (fun h' g hg => ?_) (fun h' g hg => ?_)
    · rcases List.mem_cons.1 hg with rfl | hg
      · exact .inr rfl
      · rcases h' g hg with h' | h'
        · exact .inl h'
        · cases h'
    · rcases List.mem_cons.1 hg with rfl | hg
      · exact Nat.lt_succ_self _
      · exact Nat.lt_succ_of_lt (h' g hg)
  | sWatch g =>
    dsimp only [LPos.next] at hn
    have hl := (others_free h.mutex rfl).1
    cases he : c.err <;> rw [he] at hn <;> cases hn
    · exact inv_alone h (.inl rfl) hl.symm (by simp) rfl hf h.free (fun h' => h') (fun h' => h')
    · exact inv_alone h (.inl rfl) hl.symm (by simp) rfl hf h.free (fun h' => h') (fun h' => h')
  | sRev g =>
    dsimp only [LPos.next] at hn
    have hl := (others_free h.mutex rfl).1
    cases he : c.err <;> rw [he] at hn <;> cases hn
    · exact inv_alone h (.inl rfl) hl.symm (by simp) rfl hf h.free (fun h' => h') (fun h' => h')
    · exact inv_alone h (.inl rfl) hl.symm (by simp) rfl hf h.free (fun h' => h') (fun h' => h')
  | sPoll g n =>
    dsimp only [LPos.next] at hn
    cases hn
    exact inv_alone h (.inl rfl) (others_free h.mutex rfl).1.symm (by simp) rfl hf h.free (fun h' => h') (fun h' => h')
  | sAddTwo g =>
    dsimp only [LPos.next] at hn
    cases hn
    exact inv_alone h (.inl rfl) (others_free h.mutex rfl).1.symm (by simp) (by simp [LPos.owes]; omega) hf h.free (fun h' => h') (fun h' => h')
  | sGoComp g =>
    dsimp only [LPos.next] at hn
    cases hn
    exact inv_alone h (.inl rfl) (others_free h.mutex rfl).1.symm (by simp [LPos.holds]) (by simp [LPos.owes]) hf h.free (fun h' => h') (fun h' => h')
  | sGoPoll g =>
    dsimp only [LPos.next] at hn
    cases hn
    exact inv_alone h (.inl rfl) (others_free h.mutex rfl).1.symm (by simp [LPos.holds]) (by simp [LPos.owes]) hf h.free (fun h' => h') (fun h' => h')
  | sAbort g e =>
    dsimp only [LPos.next] at hn
    cases hn
    refine inv_alone h (.inl rfl) (others_free h.mutex rfl).1.symm (by simp) rfl
      (fun _ => by show s.started = s.stop.isSome; rw [hf.1, hf.2]; rfl) h.free (fun h' g' hg => ?_) (fun h' g' hg => ?_)
    · have hg := List.mem_filter.1 hg
      rcases h' g' hg.1 with h' | h'
      · exact .inl h'
      · cases h'; simp at hg
    · exact h' g' (List.mem_filter.1 hg).1
  | sAddOne g =>
    dsimp only [LPos.next] at hn
    cases hn
    exact inv_alone h (.inl rfl) (others_free h.mutex rfl).1.symm (by simp) (by simp [LPos.owes]; omega) hf h.free (fun h' => h') (fun h' => h')
  | sGoTtl g =>
    dsimp only [LPos.next] at hn
    cases hn
    exact inv_alone h (.inl rfl) (others_free h.mutex rfl).1.symm (by simp [LPos.holds]) (by simp [LPos.owes]) hf h.free (fun h' => h') (fun h' => h')
  | sKeep g =>
    dsimp only [LPos.next] at hn
    have hl := (others_free h.mutex rfl).1
    cases hn
    refine inv_alone h (.inl rfl) hl.symm (by simp) rfl ⟨hf.1, rfl⟩ (fun h' => by have h2 : s.locked = false := h'; rw [hl] at h2; cases h2)
      (fun h' g' hg => ?_) (fun h' => h')
    rcases h' g' hg with h' | h'
    · rw [hf.2] at h'; cases h'
    · exact .inl h'
  | sStarted =>
    dsimp only [LPos.next] at hn
    have hl := (others_free h.mutex rfl).1
    cases hn
    refine inv_alone h (.inl rfl) hl.symm (by simp) rfl (fun _ => ?_) (fun h' => by have h2 : s.locked = false := h'; rw [hl] at h2; cases h2)
      (fun h' => h') (fun h' => h')
    exact hf.2.symm
  | sExit v =>
    dsimp only [LPos.next] at hn
    have hl := (others_free h.mutex rfl).1
    rw [hl] at hn
    cases hn
    exact inv_alone h (.inl rfl) rfl (by simp) rfl (fun h' => by cases h') (fun _ => hf rfl)
      (fun h' g hg => (h' g hg).imp id fun h' => by cases h') (fun h' => h')
  | tLock b =>
    dsimp only [LPos.next] at hn
    cases hl : s.locked
    · rw [hl] at hn
      cases hn
      refine inv_alone h (.inr hl) rfl (by simp) rfl (fun _ => h.free hl) (by simp) (fun h' g hg => ?_) (fun h' => h')
      rcases h' g hg with h' | h'
      · exact .inl h'
      · cases h'
    · rw [hl] at hn; cases hn
  | tRead b =>
    dsimp only [LPos.next] at hn
    have hl := (others_free h.mutex rfl).1
    have hc : Clean s := hf rfl
    cases hs : s.started <;> rw [hs] at hn <;> cases hn
    · cases b
      · exact inv_alone h (.inl rfl) hl.symm (by simp) rfl (fun _ => hc) h.free (fun h' g hg => (h' g hg).imp id fun h' => by cases h') (fun h' => h')
      · exact inv_alone h (.inl rfl) hl.symm (by simp) rfl (fun _ => hc) h.free (fun h' g hg => (h' g hg).imp id fun h' => by cases h') (fun h' => h')
    · refine inv_alone h (.inl rfl) hl.symm (by simp) rfl ⟨hs, ?_⟩ h.free (fun h' => h') (fun h' => h')
      rw [← hc, hs]
  | tCall b =>
    dsimp only [LPos.next] at hn
    have hl := (others_free h.mutex rfl).1
    cases hs : s.stop with
    | none => rw [hs] at hn; cases hn
    | some g =>
      rw [hs] at hn
      cases hn
      refine inv_alone h (.inl rfl) hl.symm (by simp) rfl ⟨hf.1, fun g' hg' => ?_⟩ (fun h' => by have h2 : s.locked = false := h'; rw [hl] at h2; cases h2)
        (fun h' g' hg => ?_) (fun h' g' hg => ?_)
      · rw [show s.stop = some g' from hg'] at hs
        cases hs
        simp [LfSh.cancel]
      · exact h' g' (List.mem_filter.1 hg).1
      · exact h' g' (List.mem_filter.1 hg).1
  | tDrop b =>
    dsimp only [LPos.next] at hn
    have hl := (others_free h.mutex rfl).1
    cases hn
    refine inv_alone h (.inl rfl) hl.symm (by simp) rfl rfl (fun h' => by have h2 : s.locked = false := h'; rw [hl] at h2; cases h2)
      (fun h' g' hg => ?_) (fun h' => h')
    rcases h' g' hg with h' | h'
    · exact absurd hg (hf.2 g' h')
    · cases h'
  | tClear b =>
    dsimp only [LPos.next] at hn
    have hl := (others_free h.mutex rfl).1
    cases hn
    refine inv_alone h (.inl rfl) hl.symm (by simp) rfl (fun _ => ?_) (fun h' => by have h2 : s.locked = false := h'; rw [hl] at h2; cases h2)
      (fun h' => h') (fun h' => h')
    show false = s.stop.isSome
    rw [show s.stop = none from hf]
    rfl
  | tUnlock b =>
    dsimp only [LPos.next] at hn
    have hl := (others_free h.mutex rfl).1
    rw [hl] at hn
    cases hn
    exact inv_alone h (.inl rfl) rfl (by simp) rfl (fun h' => by cases h') (fun _ => hf rfl)
      (fun h' g hg => (h' g hg).imp id fun h' => by cases h') (fun h' => h')
  | tWait b =>
    dsimp only [LPos.next] at hn
    cases hw : s.wg with
    | zero =>
      rw [hw] at hn
      cases hn
      cases b
      · exact inv_other (w := s.wg) h rfl (by simp) rfl (fun h' => by cases h') rfl
      · exact inv_other (w := s.wg) h rfl (by simp) rfl (fun h' => by cases h') rfl
    | succ n => rw [hw] at hn; cases hn
  | close l =>
    dsimp only [LPos.next] at hn
    cases he : c.err <;> rw [he] at hn <;> cases hn
    · exact inv_other (w := s.wg) h rfl (by simp) rfl hf rfl
    · exact inv_other (w := s.wg) h rfl (by simp) rfl hf rfl
  | fin l v => dsimp only [LPos.next] at hn; cases hn
  | comp g n =>
    cases n with
    | zero => dsimp only [LPos.next] at hn; cases hn
    | succ n =>
      dsimp only [LPos.next] at hn
      cases hc : c.first <;> rw [hc] at hn
      · cases hn
        exact inv_other (w := s.wg) h rfl (by simp) rfl (fun h' => by cases h') rfl
      · by_cases hg : g ∈ s.alive
        · simp [hg] at hn
        · simp [hg] at hn
          obtain ⟨rfl, rfl, rfl⟩ := hn
          exact inv_other (w := s.wg) h rfl (by simp) rfl (fun h' => by cases h') rfl
  | compact g n =>
    dsimp only [LPos.next] at hn
    cases hn
    exact inv_other (w := s.wg) h rfl (by simp) rfl (fun h' => by cases h') rfl
  | poll g =>
    dsimp only [LPos.next] at hn
    cases hn
    exact inv_other (w := s.wg) h rfl (by simp) rfl (fun h' => by cases h') rfl
  | ttl g =>
    dsimp only [LPos.next] at hn
    cases hn
    exact inv_other (w := s.wg + 1) h rfl (by simp [LPos.holds]) (by simp [LPos.owes]; omega) (fun h' => by cases h') rfl
  | work g =>
    dsimp only [LPos.next] at hn
    cases hn
    exact inv_other (w := s.wg) h rfl (by simp) rfl (fun h' => by cases h') rfl
  | last =>
    dsimp only [LPos.next] at hn
    cases hw : s.wg with
    | zero => rw [hw] at hn; cases hn
    | succ n =>
      rw [hw] at hn
      cases hn
      exact inv_other (w := n) h rfl (by simp) (by simp [LPos.owes]; omega) (fun h' => by cases h') rfl
  | gone => dsimp only [LPos.next] at hn; cases hn

end Verif.Go
