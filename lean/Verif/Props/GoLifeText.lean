import Verif.Lemmas.GoLifeSys
/-!
# C114: starting and stopping the backend with the text of the code

Any number of calls of `Start`, `Stop` and `Close`, made at any time by any goroutines, and the goroutines they start, all running the texts of `backend.go`
one action at a time, with any answers of the database.
-/

namespace Verif

open Verif.Go

/-- The goroutines of a list of positions. -/
def threads114 (N : Nat) (ps : List LPos) : List (Bool × Lf) := ps.map fun p => (p.isCall, p.tree N)

theorem next_calls {N : Nat} {c : LfChoice} {p p' : LPos} {s s' : LfSh} {new : List LPos} (h : p.next N c s = some (p', s', new)) :
    p'.isCall = p.isCall ∧ ∀ q ∈ new, q.isCall = false := by
  cases p with
  | comp g n =>
    cases n with
    | zero => dsimp only [LPos.next] at h; cases h
    | succ n =>
      dsimp only [LPos.next] at h
      cases hc : c.first <;> rw [hc] at h
      · cases h; exact ⟨rfl, by simp⟩
      · by_cases hg : g ∈ s.alive <;> simp [hg] at h
        obtain ⟨rfl, rfl, rfl⟩ := h
        exact ⟨rfl, by simp⟩
  | sLock => dsimp only [LPos.next] at h; cases hl : s.locked <;> rw [hl] at h <;> cases h; exact ⟨rfl, by simp⟩
  | tLock => dsimp only [LPos.next] at h; cases hl : s.locked <;> rw [hl] at h <;> cases h; exact ⟨rfl, by simp⟩
  | sExit => dsimp only [LPos.next] at h; cases hl : s.locked <;> rw [hl] at h <;> cases h; exact ⟨rfl, by simp⟩
  | tUnlock => dsimp only [LPos.next] at h; cases hl : s.locked <;> rw [hl] at h <;> cases h; exact ⟨rfl, by simp⟩
  | sRead => dsimp only [LPos.next] at h; cases hl : s.started <;> rw [hl] at h <;> cases h <;> exact ⟨rfl, by simp⟩
  | tRead b => dsimp only [LPos.next] at h; cases hl : s.started <;> rw [hl] at h <;> cases b <;> cases h <;> exact ⟨rfl, by simp⟩
  | sCreate => dsimp only [LPos.next] at h; cases hl : c.err <;> rw [hl] at h <;> cases h <;> exact ⟨rfl, by simp⟩
  | sWatch => dsimp only [LPos.next] at h; cases hl : c.err <;> rw [hl] at h <;> cases h <;> exact ⟨rfl, by simp⟩
  | sRev => dsimp only [LPos.next] at h; cases hl : c.err <;> rw [hl] at h <;> cases h <;> exact ⟨rfl, by simp⟩
  | close => dsimp only [LPos.next] at h; cases hl : c.err <;> rw [hl] at h <;> cases h <;> exact ⟨rfl, by simp⟩
  | tCall => dsimp only [LPos.next] at h; cases hl : s.stop <;> rw [hl] at h <;> cases h; exact ⟨rfl, by simp⟩
  | tWait b => dsimp only [LPos.next] at h; cases hl : s.wg <;> rw [hl] at h <;> cases b <;> cases h <;> exact ⟨rfl, by simp⟩
  | last => dsimp only [LPos.next] at h; cases hl : s.wg <;> rw [hl] at h <;> cases h; exact ⟨rfl, by simp⟩
  | sGoComp | sGoPoll | sGoTtl | ttl => dsimp only [LPos.next] at h; cases h; exact ⟨rfl, by simp [LPos.isCall]⟩
  | _ => dsimp only [LPos.next] at h; cases h <;> exact ⟨rfl, by simp⟩

theorem inv_call {ps : List LPos} {s : LfSh} {p : LPos} (h : LInv ps s) (hh : p.holds = false) (ho : p.owes = 0) : LInv (ps ++ [p]) s := by
  refine ⟨?_, ?_, ?_, h.free, fun g hg => (h.told g hg).imp id fun ⟨q, hq, hf⟩ => ⟨q, List.mem_append_left _ hq, hf⟩, h.made⟩
  · simpa [hh] using h.mutex
  · simpa [ho] using h.group
  · intro q hq
    rcases List.mem_append.1 hq with hq | hq
    · exact h.fields q hq
    · rw [List.mem_singleton.1 hq]; exact rel_free hh

/-- What a step is, in positions: a new call, or an action. -/
theorem step_positions {N : Nat} {a b : LfSys} {ps : List LPos} (ha : a.ts = threads114 N ps) (hi : LInv ps a.sh) (h : LfStep N a b) :
    (∃ p, (p = .sLock ∨ ∃ c, p = .tLock c) ∧ b.ts = threads114 N (ps ++ [p]) ∧ b.sh = a.sh) ∨
      ∃ pre post p p' new c, ps = pre ++ p :: post ∧ p.next N c a.sh = some (p', b.sh, new) ∧ b.ts = threads114 N (pre ++ p' :: post ++ new) := by
  cases h with
  | call t ht =>
    left
    rcases List.mem_cons.1 ht with rfl | ht
    · exact ⟨.sLock, .inl rfl, by simp [threads114, ha, startGo_eq, LPos.isCall, LPos.tree], rfl⟩
    · rcases List.mem_cons.1 ht with rfl | ht
      · exact ⟨.tLock false, .inr ⟨_, rfl⟩, by simp [threads114, ha, stopGo_eq, LPos.isCall, LPos.tree], rfl⟩
      · rw [List.mem_singleton.1 ht]
        exact ⟨.tLock true, .inr ⟨_, rfl⟩, by simp [threads114, ha, closeGo_eq, LPos.isCall, LPos.tree], rfl⟩
  | act pre post bb t t' sh new c ht hact =>
    right
    rw [ha] at ht
    obtain ⟨pre', l, rfl, rfl, hl⟩ := List.map_eq_append_iff.1 ht
    obtain ⟨p, post', rfl, hp, rfl⟩ := List.map_eq_cons_iff.1 hl
    cases hp
    rw [act_tree N c p a.sh (inv_panics hi)] at hact
    cases hn : p.next N c a.sh with
    | none => rw [hn] at hact; cases hact
    | some r =>
      obtain ⟨p', s', nw⟩ := r
      rw [hn] at hact
      cases hact
      have hc := next_calls hn
      refine ⟨pre', post', p, p', nw, c, rfl, hn, ?_⟩
      have hnew : (nw.map (LPos.tree N)).map (fun t => (false, t)) = nw.map fun q => (q.isCall, q.tree N) := by
        rw [List.map_map]
        exact List.map_congr_left fun q hq => by rw [hc.2 q hq]; rfl
      simp only [threads114, List.map_append, List.map_cons, hc.1, hnew]

theorem reach_inv {N : Nat} {s : LfSys} (h : LfReach N s) : ∃ ps, s.ts = threads114 N ps ∧ LInv ps s.sh := by
  induction h with
  | init => exact ⟨[], rfl, ⟨rfl, rfl, (fun _ hp => nomatch hp), fun _ => rfl, (fun _ hg => nomatch hg), (fun _ hg => nomatch hg)⟩⟩
  | step _ hs ih =>
    obtain ⟨ps, ht, hi⟩ := ih
    rcases step_positions ht hi hs with ⟨p, hp, hb, hsh⟩ | ⟨pre, post, p, p', new, c, rfl, hn, hb⟩
    · refine ⟨_, hb, hsh ▸ ?_⟩
      rcases hp with rfl | ⟨c, rfl⟩
      · exact inv_call hi rfl rfl
      · exact inv_call hi rfl rfl
    · exact ⟨_, hb, inv_next hi hn⟩

theorem tree_ok (N : Nat) (p : LPos) : p.tree N ≠ .stuck := by
  cases p with
  | close => intro h; cases h
  | comp g n => cases n <;> (intro h; cases h)
  | _ => intro h; cases h

/-- Nothing panics: nobody unlocks a free mutex, calls a nil function, or makes the counter of the wait group negative. -/
theorem C114_no_panic {N : Nat} {s : LfSys} (h : LfReach N s) (t : Bool × Lf) (ht : t ∈ s.ts) : t.2 ≠ .stuck := by
  obtain ⟨ps, hts, _⟩ := reach_inv h
  rw [hts] at ht
  obtain ⟨p, _, rfl⟩ := List.mem_map.1 ht
  exact tree_ok N p

/-- Whenever the mutex is free, the backend is started if and only if it has a function to stop it, and every context that has not ended is the one that
this function ends. So no goroutine can be left behind that `Stop` does not tell to end. -/
theorem C114_told {N : Nat} {s : LfSys} (h : LfReach N s) (hl : s.sh.locked = false) :
    s.sh.started = s.sh.stop.isSome ∧ ∀ g ∈ s.sh.alive, s.sh.stop = some g := by
  obtain ⟨ps, hts, hi⟩ := reach_inv h
  refine ⟨hi.free hl, fun g hg => ?_⟩
  rcases hi.told g hg with h' | ⟨q, hq, hf⟩
  · exact h'
  · have := zero_free (by have := hi.mutex; rw [hl] at this; exact this) q hq
    rw [fresh_holds hf] at this
    cases this

/-- So a backend that is not started has no context left. -/
theorem C114_stopped_told {N : Nat} {s : LfSys} (h : LfReach N s) (hl : s.sh.locked = false) (hs : s.sh.started = false) : s.sh.alive = [] := by
  obtain ⟨h1, h2⟩ := C114_told h hl
  rw [hs] at h1
  cases ha : s.sh.alive with
  | nil => rfl
  | cons g l =>
    have := h2 g (by rw [ha]; exact List.mem_cons_self ..)
    rw [this] at h1
    cases h1

/-- When `Wait` in `Stop` returns, every goroutine that was ever started has ended. -/
theorem C114_wait {N : Nat} {s : LfSys} (h : LfReach N s) {k t' : Lf} {sh : LfSh} {new : List Lf} {c : LfChoice}
    (hw : (Lf.wait k).act c s.sh = some (t', sh, new)) (t : Lf) (ht : (false, t) ∈ s.ts) : t = .ret [] := by
  obtain ⟨ps, hts, hi⟩ := reach_inv h
  have hz : s.sh.wg = 0 := by
    cases hz : s.sh.wg with
    | zero => rfl
    | succ n => dsimp only [Lf.act] at hw; rw [hz] at hw; cases hw
  rw [hts] at ht
  obtain ⟨p, hp, he⟩ := List.mem_map.1 ht
  have ho : p.owes = 0 := by
    have h0 := hi.group
    rw [hz] at h0
    clear hts ht hi
    induction ps with
    | nil => cases hp
    | cons q l ih =>
      rw [List.map_cons, List.sum_cons] at h0
      rcases List.mem_cons.1 hp with rfl | hp
      · omega
      · exact ih hp (by omega)
  rw [Prod.mk.injEq] at he
  obtain ⟨he1, rfl⟩ := he
  cases p with
  | gone => rfl
  | _ => first | (cases he1; done) | (cases ho; done)

/-! ### The mutex -/

/-- A position that does not leave the mutex locked. -/
def Go.LPos.calm : LPos → LfSh → Prop
  | .close l, _ => l = false
  | .fin l _, _ => l = false
  | .tRead _, s => s.started = true
  | _, _ => True

theorem next_started {N : Nat} {c : LfChoice} {p p' : LPos} {s s' : LfSh} {new : List LPos} (h : p.next N c s = some (p', s', new))
    (hh : p.holds = false) : s'.started = s.started := by
  cases p with
  | comp g n =>
    cases n with
    | zero => dsimp only [LPos.next] at h; cases h
    | succ n =>
      dsimp only [LPos.next] at h
      cases hc : c.first <;> rw [hc] at h
      · cases h; rfl
      · by_cases hg : g ∈ s.alive <;> simp [hg] at h
        obtain ⟨rfl, rfl, rfl⟩ := h
        rfl
  | sLock => dsimp only [LPos.next] at h; cases hl : s.locked <;> rw [hl] at h <;> cases h; rfl
  | tLock => dsimp only [LPos.next] at h; cases hl : s.locked <;> rw [hl] at h <;> cases h; rfl
  | close => dsimp only [LPos.next] at h; cases hl : c.err <;> rw [hl] at h <;> cases h <;> rfl
  | tWait b => dsimp only [LPos.next] at h; cases hl : s.wg <;> rw [hl] at h <;> cases b <;> cases h <;> rfl
  | last => dsimp only [LPos.next] at h; cases hl : s.wg <;> rw [hl] at h <;> cases h; rfl
  | fin | gone | compact | poll | ttl | work => dsimp only [LPos.next] at h; cases h <;> rfl
  | _ => have h2 : true = false := hh; cases h2

theorem next_calm {N : Nat} {c : LfChoice} {p p' : LPos} {s s' : LfSh} {new : List LPos} (h : p.next N c s = some (p', s', new))
    (hp : p.calm s) (hcalm : ∀ b, p = .tLock b → s.started = true) : p'.calm s' ∧ ∀ q ∈ new, q.calm s' := by
  cases p with
  | comp g n =>
    cases n with
    | zero => dsimp only [LPos.next] at h; cases h
    | succ n =>
      dsimp only [LPos.next] at h
      cases hc : c.first <;> rw [hc] at h
      · cases h; exact ⟨trivial, by simp⟩
      · by_cases hg : g ∈ s.alive <;> simp [hg] at h
        obtain ⟨rfl, rfl, rfl⟩ := h
        exact ⟨trivial, by simp⟩
  | sLock => dsimp only [LPos.next] at h; cases hl : s.locked <;> rw [hl] at h <;> cases h; exact ⟨trivial, by simp⟩
  | tLock b => dsimp only [LPos.next] at h; cases hl : s.locked <;> rw [hl] at h <;> cases h; exact ⟨hcalm b rfl, by simp⟩
  | sExit => dsimp only [LPos.next] at h; cases hl : s.locked <;> rw [hl] at h <;> cases h; exact ⟨rfl, by simp⟩
  | tUnlock => dsimp only [LPos.next] at h; cases hl : s.locked <;> rw [hl] at h <;> cases h; exact ⟨trivial, by simp⟩
  | sRead => dsimp only [LPos.next] at h; cases hl : s.started <;> rw [hl] at h <;> cases h <;> exact ⟨trivial, by simp⟩
  | tRead b => dsimp only [LPos.next] at h; rw [show s.started = true from hp] at h; cases h; exact ⟨trivial, by simp⟩
  | sCreate => dsimp only [LPos.next] at h; cases hl : c.err <;> rw [hl] at h <;> cases h <;> exact ⟨trivial, by simp⟩
  | sWatch => dsimp only [LPos.next] at h; cases hl : c.err <;> rw [hl] at h <;> cases h <;> exact ⟨trivial, by simp⟩
  | sRev => dsimp only [LPos.next] at h; cases hl : c.err <;> rw [hl] at h <;> cases h <;> exact ⟨trivial, by simp⟩
  | close => dsimp only [LPos.next] at h; cases hl : c.err <;> rw [hl] at h <;> cases h <;> exact ⟨hp, by simp⟩
  | tCall => dsimp only [LPos.next] at h; cases hl : s.stop <;> rw [hl] at h <;> cases h; exact ⟨trivial, by simp⟩
  | tWait b => dsimp only [LPos.next] at h; cases hl : s.wg <;> rw [hl] at h <;> cases b <;> cases h <;> exact ⟨rfl, by simp⟩
  | last => dsimp only [LPos.next] at h; cases hl : s.wg <;> rw [hl] at h <;> cases h; exact ⟨trivial, by simp⟩
  | sGoComp | sGoPoll | sGoTtl | ttl => dsimp only [LPos.next] at h; cases h; exact ⟨trivial, by simp [LPos.calm]⟩
  | _ => dsimp only [LPos.next] at h; cases h <;> exact ⟨trivial, by simp⟩

theorem good_inv {N : Nat} {s : LfSys} (h : LfGood N s) : ∃ ps, s.ts = threads114 N ps ∧ LInv ps s.sh ∧ ∀ p ∈ ps, p.calm s.sh := by
  induction h with
  | init => exact ⟨[], rfl, ⟨rfl, rfl, (fun _ hp => nomatch hp), fun _ => rfl, (fun _ hg => nomatch hg), (fun _ hg => nomatch hg)⟩, fun _ hp => nomatch hp⟩
  | @step a b _ hs hcalm ih =>
    obtain ⟨ps, ht, hi, hc⟩ := ih
    rcases step_positions ht hi hs with ⟨p, hp, hb, hsh⟩ | ⟨pre, post, p, p', new, c, rfl, hn, hb⟩
    · refine ⟨_, hb, hsh ▸ ?_, fun q hq => ?_⟩
      · rcases hp with rfl | ⟨c, rfl⟩
        · exact inv_call hi rfl rfl
        · exact inv_call hi rfl rfl
      · rw [hsh]
        rcases List.mem_append.1 hq with hq | hq
        · exact hc q hq
        · rw [List.mem_singleton.1 hq]; rcases hp with rfl | ⟨c, rfl⟩ <;> trivial
    · refine ⟨_, hb, inv_next hi hn, ?_⟩
      have hoth : ∀ q ∈ pre ++ post, q.calm a.sh → q.calm b.sh := by
        intro q hq hqc
        cases q with
        | tRead x =>
          have hph : p.holds = false := by
            cases hph : p.holds with
            | false => rfl
            | true => exact absurd ((others_free hi.mutex hph).2 _ hq) (by simp [LPos.holds])
          show _ = true
          rw [next_started hn hph]
          exact hqc
        | _ => exact hqc
      have hnx := next_calm hn (hc p (by simp)) fun x hpb => by
        subst hpb
        rcases hcalm pre.length (stopF x) (by cases x <;> simp [stopGo_eq, closeGo_eq])
          (by rw [ht]; simp [threads114, LPos.isCall, LPos.tree]) with h' | h'
        · rw [hb] at h'
          simp only [threads114, List.map_append, List.map_cons] at h'
          rw [List.append_assoc, List.getElem?_append_right (by simp)] at h'
          simp at h'
          exfalso
          dsimp only [LPos.next] at hn
          obtain ⟨ats, ash⟩ := a
          obtain ⟨bts, bsh⟩ := b
          cases hl : ash.locked <;> rw [hl] at hn <;> cases hn
          cases h'.2
        · exact h'
      intro q hq
      rcases List.mem_append.1 hq with hq | hq
      · rcases List.mem_append.1 hq with hq | hq
        · exact hoth q (List.mem_append_left _ hq) (hc q (List.mem_append_left _ hq))
        · rcases List.mem_cons.1 hq with rfl | hq
          · exact hnx.1
          · exact hoth q (List.mem_append_right _ hq) (hc q (List.mem_append_right _ (List.mem_cons_of_mem _ hq)))
      · exact hnx.2 q hq

/-! #### Releasing it -/

theorem frees_mono : ∀ {n : Nat} {t : Lf} {s : LfSh}, t.frees n s → t.frees (n + 1) s
  | 0, _, _, h => .inl h
  | _ + 1, _, _, h => h.imp id fun h c =>
    let ⟨t', s', new, ha, ht, hf⟩ := h c
    ⟨t', s', new, ha, ht, frees_mono hf⟩

theorem frees_le {n m : Nat} {t : Lf} {s : LfSh} (h : t.frees n s) (hm : n ≤ m) : t.frees m s := by
  induction hm with
  | refl => exact h
  | step _ ih => exact frees_mono ih

/-- The positions that hold the mutex, in order. -/
def Go.LPos.left : LPos → Nat
  | .sExit _ | .tUnlock _ => 1
  | .sStarted | .tClear _ | .sAbort _ _ => 2
  | .sKeep _ | .tDrop _ => 3
  | .sGoTtl _ | .tCall _ => 4
  | .sAddOne _ | .tRead _ => 5
  | .sGoPoll _ => 6
  | .sGoComp _ => 7
  | .sAddTwo _ => 8
  | .sPoll _ _ => 9
  | .sRev _ => 10
  | .sWatch _ => 11
  | .sCtx => 12
  | .sCreate => 13
  | .sRead => 14
  | _ => 0

theorem next_holds {N : Nat} {p : LPos} {s : LfSh} (hl : s.locked = true) (hh : p.holds = true) (hc : p.calm s) (hr : p.rel s) (c : LfChoice) :
    ∃ p' s' new, p.next N c s = some (p', s', new) ∧
      (s'.locked = false ∨ s'.locked = true ∧ p'.holds = true ∧ p'.calm s' ∧ p'.rel s' ∧ p'.left < p.left) := by
  cases p with
  | sExit v => exact ⟨.fin false v, { s with locked := false }, [], by dsimp only [LPos.next]; rw [hl]; rfl, .inl rfl⟩
  | tUnlock b => exact ⟨.tWait b, { s with locked := false }, [], by dsimp only [LPos.next]; rw [hl]; rfl, .inl rfl⟩
  | sRead =>
    have hcl : Clean s := hr rfl
    dsimp only [LPos.next]
    cases hs : s.started
    · refine ⟨_, _, _, rfl, .inr ⟨hl, rfl, trivial, ⟨hs, ?_⟩, by decide⟩⟩
      unfold Clean at hcl; rw [hs] at hcl
      cases hst : s.stop
      · rfl
      · rw [hst] at hcl; cases hcl
    · exact ⟨_, _, _, rfl, .inr ⟨hl, rfl, trivial, fun _ => hcl, (by decide : (1 : Nat) < 14)⟩⟩
  | tRead b =>
    have hs : s.started = true := hc
    have hcl : Clean s := hr rfl
    unfold Clean at hcl
    rw [hs] at hcl
    dsimp only [LPos.next]
    rw [hs]
    exact ⟨_, _, _, rfl, .inr ⟨hl, rfl, trivial, ⟨hs, hcl.symm⟩, (by decide : (4 : Nat) < 5)⟩⟩
  | sCreate =>
    dsimp only [LPos.next]
    cases he : c.err
    · exact ⟨_, _, _, rfl, .inr ⟨hl, rfl, trivial, hr, by decide⟩⟩
    · exact ⟨_, _, _, rfl, .inr ⟨hl, rfl, trivial, (fun _ => by unfold Clean; rw [hr.1, hr.2]; rfl), (by decide : (1 : Nat) < 13)⟩⟩
  | sWatch g =>
    dsimp only [LPos.next]
    cases he : c.err
    · exact ⟨_, _, _, rfl, .inr ⟨hl, rfl, trivial, hr, (by decide : (10 : Nat) < 11)⟩⟩
    · exact ⟨_, _, _, rfl, .inr ⟨hl, rfl, trivial, hr, (by decide : (2 : Nat) < 11)⟩⟩
  | sRev g =>
    dsimp only [LPos.next]
    cases he : c.err
    · exact ⟨_, _, _, rfl, .inr ⟨hl, rfl, trivial, hr, (by decide : (9 : Nat) < 10)⟩⟩
    · exact ⟨_, _, _, rfl, .inr ⟨hl, rfl, trivial, hr, (by decide : (2 : Nat) < 10)⟩⟩
  | tCall b =>
    dsimp only [LPos.next]
    cases hst : s.stop with
    | none => have := hr.2; rw [hst] at this; cases this
    | some g =>
      refine ⟨_, _, _, rfl, .inr ⟨hl, rfl, trivial, ⟨hr.1, fun g' hg' hm => ?_⟩, (by decide : (3 : Nat) < 4)⟩⟩
      have hg' : s.stop = some g' := hg'
      rw [hst] at hg'; cases hg'
      have hm := (List.mem_filter.1 hm).2
      simp at hm
  | sAbort g e =>
    dsimp only [LPos.next]
    refine ⟨_, _, _, rfl, .inr ⟨hl, rfl, trivial, (fun _ => ?_), (by decide : (1 : Nat) < 2)⟩⟩
    show s.started = s.stop.isSome
    rw [hr.1, hr.2]; rfl
  | sKeep g => exact ⟨_, _, _, rfl, .inr ⟨hl, rfl, trivial, ⟨hr.1, rfl⟩, (by decide : (2 : Nat) < 3)⟩⟩
  | sStarted =>
    refine ⟨_, _, _, rfl, .inr ⟨hl, rfl, trivial, (fun _ => ?_), by decide⟩⟩
    show true = s.stop.isSome
    exact hr.2.symm
  | tDrop b => exact ⟨_, _, _, rfl, .inr ⟨hl, rfl, trivial, rfl, (by decide : (2 : Nat) < 3)⟩⟩
  | tClear b =>
    refine ⟨_, _, _, rfl, .inr ⟨hl, rfl, trivial, (fun _ => ?_), (by decide : (1 : Nat) < 2)⟩⟩
    show false = s.stop.isSome
    rw [show s.stop = none from hr]; rfl
  | close l => have h1 : l = true := hh; have h2 : l = false := hc; rw [h1] at h2; cases h2
  | fin l v => have h1 : l = true := hh; have h2 : l = false := hc; rw [h1] at h2; cases h2
  | sCtx => exact ⟨_, _, _, rfl, .inr ⟨hl, rfl, trivial, hr, (by decide : (11 : Nat) < 12)⟩⟩
  | sPoll g n => exact ⟨_, _, _, rfl, .inr ⟨hl, rfl, trivial, hr, (by decide : (8 : Nat) < 9)⟩⟩
  | sAddTwo g => exact ⟨_, _, _, rfl, .inr ⟨hl, rfl, trivial, hr, (by decide : (7 : Nat) < 8)⟩⟩
  | sGoComp g => exact ⟨_, _, _, rfl, .inr ⟨hl, rfl, trivial, hr, (by decide : (6 : Nat) < 7)⟩⟩
  | sGoPoll g => exact ⟨_, _, _, rfl, .inr ⟨hl, rfl, trivial, hr, (by decide : (5 : Nat) < 6)⟩⟩
  | sAddOne g => exact ⟨_, _, _, rfl, .inr ⟨hl, rfl, trivial, hr, (by decide : (4 : Nat) < 5)⟩⟩
  | sGoTtl g => exact ⟨_, _, _, rfl, .inr ⟨hl, rfl, trivial, hr, (by decide : (3 : Nat) < 4)⟩⟩
  | _ => have h1 : false = true := hh; cases h1

theorem panics_holds {p : LPos} {s : LfSh} (hl : s.locked = true) (hh : p.holds = true) (hr : p.rel s) : p.panics s = false := by
  cases p with
  | sExit | tUnlock => simp [LPos.panics, hl]
  | tCall b =>
    have := hr.2
    cases hs : s.stop
    · rw [hs] at this; cases this
    · simp [LPos.panics, hs]
  | last => have h1 : false = true := hh; cases h1
  | _ => rfl

theorem frees_holds (N : Nat) : ∀ (n : Nat) (p : LPos) (s : LfSh), s.locked = true → p.holds = true → p.calm s → p.rel s → p.left ≤ n → (p.tree N).frees n s
  | 0, p, s, hl, hh, hc, hr, hn => by
    obtain ⟨p', s', new, _, h⟩ := next_holds (N := N) hl hh hc hr {}
    rcases h with h | h
    · cases p <;> first | (have h1 : false = true := hh; cases h1; done) | (simp only [LPos.left] at hn; omega; done) | skip
      all_goals (have h3 : true = false := (Eq.symm hh).trans hc; cases h3)
    · omega
  | n + 1, p, s, hl, hh, hc, hr, hn => by
    refine .inr fun c => ?_
    obtain ⟨p', s', new, he, h⟩ := next_holds (N := N) hl hh hc hr c
    refine ⟨p'.tree N, s', new.map (LPos.tree N), ?_, tree_ok N p', ?_⟩
    · rw [act_tree N c p s (panics_holds hl hh hr), he]; rfl
    · rcases h with h | ⟨h1, h2, h3, h4, h5⟩
      · exact frees_le (n := 0) (by exact h) (Nat.zero_le n)
      · exact frees_holds N n p' s' h1 h2 h3 h4 (by omega)

/-- Unless `Stop` or `Close` was called on a backend that is not started, the mutex never stays locked: whenever it is locked, some call is about to unlock
it, in at most fourteen actions of its own, none of which waits for anybody. -/
theorem C114_mutex_partial {N : Nat} {s : LfSys} (h : LfGood N s) (hl : s.sh.locked = true) : ∃ t, (true, t) ∈ s.ts ∧ t.frees 14 s.sh := by
  obtain ⟨ps, hts, hi, hc⟩ := good_inv h
  have : ∃ p ∈ ps, p.holds = true := by
    apply Classical.byContradiction
    intro hn
    have hm := hi.mutex
    rw [hl] at hm
    have hz : ∀ q ∈ ps, q.holds = false := fun q hq => by
      cases hq' : q.holds
      · rfl
      · exact absurd ⟨q, hq, hq'⟩ hn
    have : (ps.map fun p => p.holds.toNat).sum = 0 := by
      clear hts hi hc hn hm
      induction ps with
      | nil => rfl
      | cons r l ih =>
        rw [List.map_cons, List.sum_cons, ih fun q hq => hz q (List.mem_cons_of_mem _ hq), hz r (List.mem_cons_self ..)]
        rfl
    rw [this] at hm
    cases hm
  obtain ⟨p, hp, hh⟩ := this
  refine ⟨p.tree N, ?_, frees_holds N 14 p s.sh hl hh (hc p hp) (hi.fields p hp) ?_⟩
  · rw [hts]
    refine List.mem_map.2 ⟨p, hp, ?_⟩
    have : p.isCall = true := by cases p <;> first | rfl | (have h1 : false = true := hh; cases h1)
    rw [this]
  · cases p <;> simp [LPos.left]

/-- A `Start` that has the mutex: a state to which the theorem above applies. -/
theorem C114_mutex_example : ∃ s, LfGood 5 s ∧ s.sh.locked = true ∧ s.ts = [(true, startReadF 5)] := by
  have h1 : LfGood 5 { ts := [(true, startGo 5)], sh := {} } :=
    .step .init (.call {} _ (List.mem_cons_self ..)) fun i t _ hi => by cases i <;> cases hi
  refine ⟨{ ts := [(true, startReadF 5)], sh := { locked := true } }, .step h1 (.act _ [] [] true (startGo 5) _ _ [] {} rfl ?_) ?_, rfl, rfl⟩
  · rw [startGo_eq]; rfl
  · intro i t ht hi
    cases i with
    | succ i => cases hi
    | zero =>
      have h0 : startGo 5 = t := (Prod.mk.inj (Option.some.inj hi)).2
      rcases ht with rfl | rfl
      · rw [startGo_eq, stopGo_eq] at h0; cases congrArg (fun x => match x with | Lf.lock (.getStarted k) => (match k true with | .unlock _ => true | _ => false) | _ => false) h0
      · rw [startGo_eq, closeGo_eq] at h0; cases congrArg (fun x => match x with | Lf.lock (.getStarted k) => (match k true with | .unlock _ => true | _ => false) | _ => false) h0

/-! ### Ending -/

/-- When all contexts have ended, every goroutine can end without waiting for anybody: `Wait` comes to its end. -/
theorem C114_goroutines_end {N : Nat} {s : LfSys} (h : LfReach N s) (hd : s.sh.alive = []) (t : Lf) (ht : (false, t) ∈ s.ts) : t.canEnd 3 s.sh := by
  obtain ⟨ps, hts, hi⟩ := reach_inv h
  rw [hts] at ht
  obtain ⟨p, hp, he⟩ := List.mem_map.1 ht
  have hw : p.owes ≤ s.sh.wg := by
    rw [← hi.group]
    clear hts ht hi
    induction ps with
    | nil => cases hp
    | cons q l ih =>
      rw [List.map_cons, List.sum_cons]
      rcases List.mem_cons.1 hp with rfl | hp
      · omega
      · have := ih hp; omega
  generalize s.sh = sh at hd hw
  have hlast : ∀ (sh : LfSh) (n : Nat), 1 ≤ sh.wg → lastF.canEnd (n + 1) sh := by
    intro sh n hsh
    refine .inr (.inr ⟨{}, .ret [], { sh with wg := sh.wg - 1 }, [], ?_, ?_⟩)
    · obtain ⟨w, hw⟩ : ∃ w, sh.wg = w + 1 := ⟨sh.wg - 1, by omega⟩
      show (match sh.wg with | 0 => _ | n + 1 => _) = _
      rw [hw]; rfl
    · cases n
      · exact .inl rfl
      · exact .inl rfl
  have hcomp : ∀ g n m, 1 ≤ sh.wg → (compF g n).canEnd (m + 2) sh := by
    intro g n m hsh
    cases n with
    | zero => exact .inr (.inl rfl)
    | succ n =>
      refine .inr (.inr ⟨{ first := true }, lastF, sh, [], ?_, hlast sh m hsh⟩)
      simp [compF, Lf.act, hd]
  rw [Prod.mk.injEq] at he
  obtain ⟨he1, rfl⟩ := he
  cases p with
  | comp g n => exact hcomp g n 1 hw
  | compact g n => exact .inr (.inr ⟨{}, compF g n, sh, [], rfl, hcomp g n 0 hw⟩)
  | poll g => exact .inr (.inr ⟨{}, lastF, sh, [], rfl, hlast sh 1 hw⟩)
  | work g => exact .inr (.inr ⟨{}, lastF, sh, [], rfl, hlast sh 1 hw⟩)
  | ttl g => exact .inr (.inr ⟨{}, lastF, { sh with wg := sh.wg + 1 }, [.work g lastF], rfl, hlast _ 1 (by show 1 ≤ sh.wg + 1; omega)⟩)
  | last => exact hlast sh 2 hw
  | gone => exact .inl rfl
  | _ => cases he1

/-! ### What a call does when nobody else runs -/

/-- `Start` on a backend that is not started: the health key is created, the compaction record looked for, the revision read, and the three goroutines
started with a context that only the function in `stop` ends. -/
theorem C114_start (N : Nat) (s : LfSh) (n : Int) (hl : s.locked = false) (hs : s.started = false) :
    ∃ compactor, (startGo N).solo (List.replicate 15 { n := n }) s =
      (.ret [.nil], { s with started := true, stop := some s.made, poll := n, wg := s.wg + 3, made := s.made + 1, alive := s.made :: s.alive },
        [compactor, .poll s.made lastF, .ttl s.made lastF]) := by
  refine ⟨compF s.made N, ?_⟩
  obtain ⟨l, st, sp, p, w, m, a⟩ := s
  dsimp only at hl hs
  subst hl hs
  rw [startGo_eq]
  rfl

/-- If the health key cannot be created (other than because it exists), `Start` returns the error and leaves everything as it was. -/
theorem C114_start_create_fails (N : Nat) (s : LfSh) (e : ApiErr) (hl : s.locked = false) (hs : s.started = false) :
    (startGo N).solo (List.replicate 4 { err := some e }) s = (.ret [lifeErrV e], s, []) := by
  obtain ⟨l, st, sp, p, w, m, a⟩ := s
  dsimp only at hl hs
  subst hl hs
  rw [startGo_eq]
  rfl

/-- If the compaction record or the revision cannot be read, `Start` returns the error and leaves no context and no goroutine. -/
theorem C114_start_watch_fails (N : Nat) (s : LfSh) (e : ApiErr) (cs : List LfChoice) (hcs : cs = [{ err := some e }] ∨ cs = [{}, { err := some e }])
    (hl : s.locked = false) (hs : s.started = false) (hm : ∀ g ∈ s.alive, g < s.made) :
    (startGo N).solo (List.replicate 4 ({} : LfChoice) ++ cs ++ List.replicate 2 ({} : LfChoice)) s = (.ret [lifeErrV e], { s with made := s.made + 1 }, []) := by
  obtain ⟨l, st, sp, p, w, m, a⟩ := s
  dsimp only at hl hs hm
  subst hl hs
  have hf : (m :: a).filter (fun h => decide (h ≠ m)) = a := by
    rw [List.filter_cons]
    simp only [ne_eq, not_true_eq_false, decide_false, Bool.false_eq_true, if_false]
    exact List.filter_eq_self.2 fun g hg => by have := hm g hg; simp; omega
  rw [startGo_eq]
  rcases hcs with rfl | rfl
  · show (Lf.ret [lifeErrV e], ({ locked := false, started := false, stop := sp, poll := p, wg := w, made := m + 1, alive := (m :: a).filter fun h => h ≠ m } : LfSh), ([] : List Lf)) = _
    rw [hf]
  · show (Lf.ret [lifeErrV e], ({ locked := false, started := false, stop := sp, poll := p, wg := w, made := m + 1, alive := (m :: a).filter fun h => h ≠ m } : LfSh), ([] : List Lf)) = _
    rw [hf]

/-- `Start` on a backend that is started does nothing. -/
theorem C114_start_twice (N : Nat) (s : LfSh) (hl : s.locked = false) (hs : s.started = true) :
    (startGo N).solo (List.replicate 3 {}) s = (.ret [.nil], s, []) := by
  obtain ⟨l, st, sp, p, w, m, a⟩ := s
  dsimp only at hl hs
  subst hl hs
  rw [startGo_eq]
  rfl

/-- `Stop` on a backend that is started ends the context, forgets it, and then waits for the goroutines with the mutex free. -/
theorem C114_stop (N : Nat) (s : LfSh) (g : Nat) (hl : s.locked = false) (hs : s.started = true) (hg : s.stop = some g) :
    ∃ k, (stopGo N).solo (List.replicate 6 {}) s =
      (.wait k, { s with started := false, stop := none, alive := s.alive.filter fun h => h ≠ g }, []) ∧ k = .ret [.nil] := by
  refine ⟨_, ?_, rfl⟩
  obtain ⟨l, st, sp, p, w, m, a⟩ := s
  dsimp only at hl hs hg
  subst hl hs hg
  rw [stopGo_eq]
  rfl

/-! ### The mutex that stays locked -/

/-- The code violates the full property: `Stop` (or `Close`) of a backend that is not started returns with the mutex locked. -/
theorem C114_leak_counterexample (N : Nat) :
    (stopGo N).solo (List.replicate 2 {}) {} = (.ret [.nil], { locked := true }, []) ∧
      LfReach N { ts := [(true, .ret [.nil]), (true, startGo N)], sh := { locked := true } } ∧
      ∀ s, LfPath N { ts := [(true, .ret [.nil]), (true, startGo N)], sh := { locked := true } } s → s.ts[1]? = some (true, startGo N) := by
  refine ⟨by rw [stopGo_eq]; rfl, ?_, ?_⟩
  · have h1 : LfReach N { ts := [(true, stopGo N)], sh := {} } := .step .init (.call {} _ (List.mem_cons_of_mem _ (List.mem_cons_self ..)))
    have h2 : LfReach N { ts := [(true, stopReadF false)], sh := { locked := true } } :=
      .step h1 (.act _ [] [] true (stopGo N) _ _ [] {} rfl (by rw [stopGo_eq]; rfl))
    have h3 : LfReach N { ts := [(true, .ret [.nil])], sh := { locked := true } } := .step h2 (.act _ [] [] true (stopReadF false) _ _ [] {} rfl rfl)
    exact .step h3 (.call _ _ (List.mem_cons_self ..))
  · intro s hs
    suffices h : s.sh.locked = true ∧ s.ts[1]? = some (true, startGo N) ∧ ∀ t ∈ s.ts, (∃ vs, t.2 = .ret vs) ∨ ∃ k, t.2 = .lock k from h.2.1
    induction hs with
    | refl =>
      refine ⟨rfl, rfl, fun t ht => ?_⟩
      rcases List.mem_cons.1 ht with rfl | ht
      · exact .inl ⟨_, rfl⟩
      · rw [List.mem_singleton.1 ht]; exact .inr ⟨startReadF N, startGo_eq N⟩
    | step _ hst ih =>
      obtain ⟨h1, h2, h3⟩ := ih
      cases hst with
      | call t ht =>
        refine ⟨h1, ?_, fun u hu => ?_⟩
        · show (_ ++ _)[1]? = _
          rw [List.getElem?_append_left (List.getElem?_eq_some_iff.1 h2).1]; exact h2
        · rcases List.mem_append.1 hu with hu | hu
          · exact h3 u hu
          · rw [List.mem_singleton.1 hu]
            right
            rcases List.mem_cons.1 ht with rfl | ht
            · exact ⟨startReadF N, startGo_eq N⟩
            · rcases List.mem_cons.1 ht with rfl | ht
              · exact ⟨stopReadF false, stopGo_eq N⟩
              · rw [List.mem_singleton.1 ht]; exact ⟨stopReadF true, closeGo_eq N⟩
      | act pre post b t t' sh new c ht ha =>
        exfalso
        rcases h3 (b, t) (by rw [ht]; simp) with ⟨vs, hv⟩ | ⟨k, hk⟩
        · dsimp only at hv; subst hv; cases ha
        · dsimp only at hk; subst hk
          dsimp only [Lf.act] at ha
          rw [h1] at ha
          cases ha

end Verif
