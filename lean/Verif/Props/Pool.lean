import Verif.Model.Pool
import Verif.Model.SqlText
/-!
# C90 Requests never wait for each other for ever
-/

namespace Verif

/-! ## Invariants -/

/-- The owners of the transactions under way. -/
def PoolSys.owners (s : PoolSys) : List TxOwner := s.calls.filterMap fun c => c.tx?.map (·.owner)

/-- The statements a transaction has executed are in the cache. -/
def PoolCall.fine (cache : List Bytes) : PoolCall → Prop
  | .stmt (some t) q p => (∃ pre, t.texts = pre ++ q :: t.todo ∧ ∀ x ∈ pre, x ∈ cache) ∧ (p = .got → q ∈ cache)
  | .stmt none _ _ => True
  | .reading _ => True
  | .begin t => t.todo = t.texts
  | .tx t => ∃ pre, t.texts = pre ++ t.todo ∧ ∀ x ∈ pre, x ∈ cache

theorem PoolCall.fine.mono {c : PoolCall} {l l' : List Bytes} (h : c.fine l) (hl : ∀ x ∈ l, x ∈ l') : c.fine l' := by
  cases c with
  | stmt t q p =>
    cases t with
    | none => trivial
    | some t =>
      obtain ⟨⟨pre, h1, h2⟩, h3⟩ := h
      exact ⟨⟨pre, h1, fun x hx => hl x (h2 x hx)⟩, fun hp => hl _ (h3 hp)⟩
  | reading q => trivial
  | begin t => exact h
  | tx t =>
    obtain ⟨pre, h1, h2⟩ := h
    exact ⟨pre, h1, fun x hx => hl x (h2 x hx)⟩

structure PoolInv (s : PoolSys) : Prop where
  owners : s.owners.Nodup
  limit : 0 < s.limit → (s.inUse : Int) ≤ s.limit
  fine : ∀ c ∈ s.calls, c.fine s.cache
  mutex : (s.calls.filter (·.locks)).length ≤ 1
  ended : ∀ t, (.tx t, true) ∈ s.ended → ∀ q ∈ t.texts, q ∈ s.cache

theorem inUse_split {s : PoolSys} {pre post : List PoolCall} {c : PoolCall} (h : s.calls = pre ++ c :: post) :
    s.inUse = (pre.map (·.conns)).sum + c.conns + (post.map (·.conns)).sum := by
  unfold PoolSys.inUse
  rw [h]; simp; omega

theorem inUse_move (s : PoolSys) (pre post : List PoolCall) (c : PoolCall) :
    (s.move pre post c).inUse = (pre.map (·.conns)).sum + c.conns + (post.map (·.conns)).sum :=
  inUse_split rfl

theorem inUse_finish (s : PoolSys) (pre post : List PoolCall) (c : PoolCall) (ok : Bool) :
    (s.finish pre post c ok).inUse = (pre.map (·.conns)).sum + (post.map (·.conns)).sum := by
  simp [PoolSys.inUse, PoolSys.finish]

theorem full_false {s : PoolSys} (h : s.full = false) (hl : 0 < s.limit) : (s.inUse : Int) < s.limit := by
  simp only [PoolSys.full, Bool.and_eq_false_iff, decide_eq_false_iff_not] at h
  omega

theorem full_true {s : PoolSys} (h : s.full = true) : 0 < s.limit ∧ s.limit ≤ s.inUse := by
  simpa [PoolSys.full] using h

/-- A call goes on: what has to be checked. -/
theorem PoolInv.move {s : PoolSys} (h : PoolInv s) {pre post : List PoolCall} {c d : PoolCall} {cache' : List Bytes}
    (hc : s.calls = pre ++ c :: post) (hcache : ∀ x ∈ s.cache, x ∈ cache') (ho : d.tx?.map (·.owner) = c.tx?.map (·.owner))
    (hconn : d.conns ≤ c.conns ∨ (d.conns = c.conns + 1 ∧ s.full = false))
    (hfine : d.fine cache') (hlock : d.locks = true → c.locks = true ∨ s.locked = false) :
    PoolInv { s.move pre post d with cache := cache' } where
  owners := by
    have := h.owners
    unfold PoolSys.owners at this ⊢
    rw [hc] at this
    simp only [PoolSys.move, List.filterMap_append, List.filterMap_cons, ho] at this ⊢
    exact this
  limit := by
    intro hl
    have h1 := h.limit hl
    have h2 : PoolSys.inUse { s.move pre post d with cache := cache' } = (s.move pre post d).inUse := rfl
    rw [h2, inUse_move]
    rw [inUse_split hc] at h1
    show _ ≤ s.limit
    rcases hconn with hle | ⟨heq, hf⟩
    · push_cast at h1 ⊢; omega
    · have := full_false hf hl
      rw [inUse_split hc] at this
      push_cast at this ⊢; omega
  fine := by
    intro x hx
    show x.fine cache'
    have hx : x ∈ pre ++ d :: post := hx
    rcases List.mem_append.1 hx with hx | hx
    · exact (h.fine x (by rw [hc]; exact List.mem_append_left _ hx)).mono hcache
    · rcases List.mem_cons.1 hx with rfl | hx
      · exact hfine
      · exact (h.fine x (by rw [hc]; simp [hx])).mono hcache
  mutex := by
    show ((pre ++ d :: post).filter (·.locks)).length ≤ 1
    have h1 := h.mutex
    rw [hc] at h1
    simp only [List.filter_append, List.length_append, List.filter_cons] at h1 ⊢
    cases hd : d.locks with
    | false =>
      have : ((pre.filter (·.locks)).length + (post.filter (·.locks)).length) ≤ 1 := by
        split at h1 <;> (try simp only [List.length_cons] at h1) <;> omega
      simpa using this
    | true =>
      rcases hlock hd with hcl | hs
      · rw [hcl] at h1; simpa using h1
      · have hn : ∀ x ∈ s.calls, x.locks = false := by
          intro x hx
          unfold PoolSys.locked at hs
          cases hb : x.locks with
          | false => rfl
          | true => rw [List.any_eq_true.2 ⟨x, hx, hb⟩] at hs; cases hs
        have h2 : pre.filter (·.locks) = [] :=
          List.filter_eq_nil_iff.2 fun x hx => by simp [hn x (by rw [hc]; simp [hx])]
        have h3 : post.filter (·.locks) = [] :=
          List.filter_eq_nil_iff.2 fun x hx => by simp [hn x (by rw [hc]; simp [hx])]
        simp [h2, h3]
  ended := fun t ht q hq => hcache q (h.ended t ht q hq)

/-- A call returns. -/
theorem PoolInv.finish {s : PoolSys} (h : PoolInv s) {pre post : List PoolCall} {c : PoolCall} {ok : Bool}
    (hc : s.calls = pre ++ c :: post) (hok : ∀ t, c = .tx t → ok = true → t.todo = []) :
    PoolInv (s.finish pre post c ok) where
  owners := by
    have := h.owners
    unfold PoolSys.owners at this ⊢
    rw [hc] at this
    refine List.Nodup.sublist (List.Sublist.filterMap _ ?_) this
    exact List.Sublist.append_left (List.sublist_cons_self _ _) _
  limit := by
    intro hl
    have h1 := h.limit hl
    rw [inUse_finish]
    rw [inUse_split hc] at h1
    show _ ≤ s.limit
    push_cast at h1 ⊢; omega
  fine := by
    intro x hx
    have hx : x ∈ pre ++ post := hx
    refine h.fine x ?_
    rw [hc]
    rcases List.mem_append.1 hx with hx | hx <;> simp [hx]
  mutex := by
    show ((pre ++ post).filter (·.locks)).length ≤ 1
    have h1 := h.mutex
    rw [hc] at h1
    simp only [List.filter_append, List.length_append, List.filter_cons] at h1 ⊢
    split at h1 <;> (try simp only [List.length_cons] at h1) <;> omega
  ended := by
    intro t ht q hq
    rcases List.mem_append.1 ht with ht | ht
    · exact h.ended t ht q hq
    · simp only [List.mem_singleton, Prod.mk.injEq] at ht
      obtain ⟨hct, hok'⟩ := ht
      have hf := h.fine c (by rw [hc]; simp)
      have := hok t hct.symm hok'.symm
      rw [← hct] at hf
      obtain ⟨p, hp, hall⟩ := hf
      rw [this, List.append_nil] at hp
      rw [hp] at hq
      exact hall q hq

theorem PoolInv.step {k : PoolActor} {s s' : PoolSys} (h : PoolInv s) (hs : PoolStep k s s') : PoolInv s' := by
  cases hs with
  | query _ q =>
    refine ⟨?_, ?_, ?_, ?_, h.ended⟩
    · have := h.owners
      unfold PoolSys.owners at this ⊢
      simpa [List.filterMap_append, PoolCall.tx?] using this
    · intro hl
      have := h.limit hl
      simpa [PoolSys.inUse, PoolCall.conns] using this
    · intro c hc
      rcases List.mem_append.1 hc with hc | hc
      · exact h.fine c hc
      · rw [List.mem_singleton.1 hc]; trivial
    · have := h.mutex
      simpa [List.filter_append, PoolCall.locks] using this
  | transaction _ o qs hn =>
    refine ⟨?_, ?_, ?_, ?_, h.ended⟩
    · have := h.owners
      unfold PoolSys.owners at this ⊢
      rw [List.filterMap_append, List.nodup_append]
      refine ⟨this, by simp [PoolCall.tx?], ?_⟩
      intro a ha b hb he
      simp only [List.filterMap_cons, PoolCall.tx?, Option.map_some, List.filterMap_nil, List.mem_singleton] at hb
      obtain ⟨c, hc, hca⟩ := List.mem_filterMap.1 ha
      cases ht : c.tx? with
      | none => rw [ht] at hca; cases hca
      | some t =>
        rw [ht] at hca
        simp only [Option.map_some, Option.some.injEq] at hca
        exact hn c hc t ht (by rw [hca, he, hb])
    · intro hl
      have := h.limit hl
      simpa [PoolSys.inUse, PoolCall.conns] using this
    · intro c hc
      rcases List.mem_append.1 hc with hc | hc
      · exact h.fine c hc
      · rw [List.mem_singleton.1 hc]; rfl
    · have := h.mutex
      simpa [List.filter_append, PoolCall.locks] using this
  | look _ pre post t q hc hl =>
    have hf := h.fine _ (show PoolCall.stmt t q .look ∈ s.calls by rw [hc]; simp)
    refine h.move (cache' := s.cache) hc (fun _ h => h) rfl (Or.inl ?_) ?_ ?_
    · split <;> simp [PoolCall.conns]
    · cases t with
      | none => trivial
      | some t =>
        refine ⟨hf.1, fun hg => ?_⟩
        split at hg
        · assumption
        · cases hg
    · split <;> simp [PoolCall.locks]
  | lock _ pre post t q hc hl =>
    have hf := h.fine _ (show PoolCall.stmt t q .want ∈ s.calls by rw [hc]; simp)
    refine h.move (cache' := s.cache) hc (fun _ h => h) rfl (Or.inl ?_) ?_ (fun _ => Or.inr hl)
    · split <;> simp [PoolCall.conns]
    · cases t with
      | none => trivial
      | some t =>
        refine ⟨hf.1, fun hg => ?_⟩
        split at hg
        · assumption
        · cases hg
  | prep _ pre post t q hc hf' =>
    have hf := h.fine _ (show PoolCall.stmt t q .prep ∈ s.calls by rw [hc]; simp)
    refine h.move (cache' := s.cache) hc (fun _ h => h) rfl (Or.inr ⟨?_, hf'⟩) ?_ (fun _ => Or.inl rfl)
    · simp [PoolCall.conns]
    · cases t with
      | none => trivial
      | some t => exact ⟨hf.1, nofun⟩
  | prepared _ pre post t q hc =>
    have hf := h.fine _ (show PoolCall.stmt t q .prepping ∈ s.calls by rw [hc]; simp)
    refine h.move hc (fun _ h => List.mem_append_left _ h) rfl (Or.inl ?_) ?_ nofun
    · simp [PoolCall.conns]
    · cases t with
      | none => trivial
      | some t =>
        obtain ⟨⟨p, h1, h2⟩, _⟩ := hf
        exact ⟨⟨p, h1, fun x hx => List.mem_append_left _ (h2 x hx)⟩, fun _ => by simp⟩
  | notPrepared _ pre post t q hc => exact h.finish hc nofun
  | use _ pre post q hc hf' =>
    exact h.move (cache' := s.cache) hc (fun _ h => h) rfl (Or.inr ⟨by simp [PoolCall.conns], hf'⟩) trivial nofun
  | read _ pre post q ok hc => exact h.finish hc nofun
  | begin _ pre post t hc hf' =>
    have hf := h.fine _ (show PoolCall.begin t ∈ s.calls by rw [hc]; simp)
    refine h.move (cache' := s.cache) hc (fun _ h => h) rfl (Or.inr ⟨by simp [PoolCall.conns], hf'⟩) ?_ nofun
    exact ⟨[], by rw [show t.todo = t.texts from hf]; rfl, nofun⟩
  | next _ pre post o qs rest q hc =>
    have hf := h.fine _ (show PoolCall.tx ⟨o, qs, q :: rest⟩ ∈ s.calls by rw [hc]; simp)
    refine h.move (cache' := s.cache) hc (fun _ h => h) rfl (Or.inl (by simp [PoolCall.conns])) ?_ nofun
    exact ⟨hf, nofun⟩
  | exec _ pre post t q hc =>
    have hf := h.fine _ (show PoolCall.stmt (some t) q .got ∈ s.calls by rw [hc]; simp)
    refine h.move (cache' := s.cache) hc (fun _ h => h) rfl (Or.inl (by simp [PoolCall.conns])) ?_ nofun
    obtain ⟨⟨p, h1, h2⟩, h3⟩ := hf
    refine ⟨p ++ [q], by rw [h1]; simp, fun x hx => ?_⟩
    rcases List.mem_append.1 hx with hx | hx
    · exact h2 x hx
    · rw [List.mem_singleton.1 hx]; exact h3 rfl
  | rollback _ pre post t hc => exact h.finish hc nofun
  | commit _ pre post o qs ok hc => exact h.finish hc fun t ht _ => by cases ht; rfl
  | cancel _ pre post q p hp hc => exact h.finish hc nofun

theorem PoolReachable.inv {c : PoolConfig} {s : PoolSys} (h : PoolReachable c s) : PoolInv s := by
  induction h with
  | init => refine ⟨?_, ?_, ?_, ?_, ?_⟩ <;> simp [PoolSys.init, PoolSys.owners, PoolSys.inUse]; omega
  | step _ hs ih => exact ih.step hs

/-- Nobody prepares what is prepared already. -/
def PoolCall.fresh (cache : List Bytes) : PoolCall → Prop
  | .stmt _ q .prep => q ∉ cache
  | .stmt _ q .prepping => q ∉ cache
  | _ => True

theorem fresh_of_unlocked {c : PoolCall} (h : c.locks = false) (l : List Bytes) : c.fresh l := by
  cases c with
  | stmt t q p => cases p <;> first | trivial | cases h
  | _ => trivial

/-- A statement text is prepared once, whatever runs at the same time: the cache holds no text twice, and at most one
goroutine is preparing, a text that is not in the cache. -/
theorem C90_prepared_once {c : PoolConfig} {s : PoolSys} (h : PoolReachable c s) :
    s.cache.Nodup ∧
    ∀ pre t q p post, s.calls = pre ++ .stmt t q p :: post → (p = .prep ∨ p = .prepping) →
      q ∉ s.cache ∧ ∀ t' q' p', .stmt t' q' p' ∈ pre ++ post → p' ≠ .prep ∧ p' ≠ .prepping := by
  have inv : s.cache.Nodup ∧ ∀ x ∈ s.calls, x.fresh s.cache := by
    induction h with
    | init => simp [PoolSys.init]
    | @step k a b ha hs ih =>
      obtain ⟨ih1, ih2⟩ := ih
      have keep : ∀ {pre post : List PoolCall} {x y : PoolCall}, a.calls = pre ++ x :: post → y.fresh a.cache →
          ∀ z ∈ pre ++ y :: post, z.fresh a.cache := by
        intro pre post x y hc hy z hz
        rcases List.mem_append.1 hz with hz | hz
        · exact ih2 z (by rw [hc]; simp [hz])
        · rcases List.mem_cons.1 hz with rfl | hz
          · exact hy
          · exact ih2 z (by rw [hc]; simp [hz])
      have drop : ∀ {pre post : List PoolCall} {x : PoolCall}, a.calls = pre ++ x :: post →
          ∀ z ∈ pre ++ post, z.fresh a.cache := by
        intro pre post x hc z hz
        rcases List.mem_append.1 hz with hz | hz <;> exact ih2 z (by rw [hc]; simp [hz])
      cases hs with
      | query _ q =>
        refine ⟨ih1, fun x hx => ?_⟩
        rcases List.mem_append.1 hx with hx | hx
        · exact ih2 x hx
        · rw [List.mem_singleton.1 hx]; trivial
      | transaction _ o qs hn =>
        refine ⟨ih1, fun x hx => ?_⟩
        rcases List.mem_append.1 hx with hx | hx
        · exact ih2 x hx
        · rw [List.mem_singleton.1 hx]; trivial
      | look _ pre post t q hc hl => exact ⟨ih1, keep hc (by split <;> trivial)⟩
      | lock _ pre post t q hc hl =>
        refine ⟨ih1, keep hc ?_⟩
        split
        · trivial
        · assumption
      | prep _ pre post t q hc hf => exact ⟨ih1, keep hc (ih2 (.stmt t q .prep) (by rw [hc]; simp))⟩
      | prepared _ pre post t q hc =>
        have hq : q ∉ a.cache := ih2 (.stmt t q .prepping) (by rw [hc]; simp)
        refine ⟨?_, ?_⟩
        · show (a.cache ++ [q]).Nodup
          rw [List.nodup_append]
          exact ⟨ih1, by simp, fun x hx y hy e => hq (by rw [List.mem_singleton] at hy; rw [← hy, ← e]; exact hx)⟩
        · have hm := ha.inv.mutex
          rw [hc] at hm
          have others : ∀ x, x ∈ pre ∨ x ∈ post → x.locks = false := by
            intro x hx
            cases hb : x.locks with
            | false => rfl
            | true =>
              exfalso
              rw [List.filter_append, List.filter_cons, if_pos (show PoolCall.locks (.stmt t q .prepping) = true from rfl)] at hm
              simp only [List.length_append, List.length_cons] at hm
              rcases hx with hx | hx
              · have := List.length_pos_of_mem (List.mem_filter (p := fun x : PoolCall => x.locks).2 ⟨hx, hb⟩)
                omega
              · have := List.length_pos_of_mem (List.mem_filter (p := fun x : PoolCall => x.locks).2 ⟨hx, hb⟩)
                omega
          intro x hx
          rcases List.mem_append.1 hx with hx | hx
          · exact fresh_of_unlocked (others x (Or.inl hx)) _
          · rcases List.mem_cons.1 hx with rfl | hx
            · trivial
            · exact fresh_of_unlocked (others x (Or.inr hx)) _
      | notPrepared _ pre post t q hc => exact ⟨ih1, drop hc⟩
      | use _ pre post q hc hf => exact ⟨ih1, keep hc trivial⟩
      | read _ pre post q ok hc => exact ⟨ih1, drop hc⟩
      | begin _ pre post t hc hf => exact ⟨ih1, keep hc trivial⟩
      | next _ pre post o qs rest q hc => exact ⟨ih1, keep hc trivial⟩
      | exec _ pre post t q hc => exact ⟨ih1, keep hc trivial⟩
      | rollback _ pre post t hc => exact ⟨ih1, drop hc⟩
      | commit _ pre post o qs ok hc => exact ⟨ih1, drop hc⟩
      | cancel _ pre post q p hp hc => exact ⟨ih1, drop hc⟩
  refine ⟨inv.1, fun pre t q p post hc hp => ⟨?_, fun t' q' p' hm => ?_⟩⟩
  · have := inv.2 (.stmt t q p) (by rw [hc]; simp)
    rcases hp with rfl | rfl <;> exact this
  · have hl : PoolCall.locks (.stmt t q p) = true := by rcases hp with rfl | rfl <;> rfl
    have hmx := h.inv.mutex
    rw [hc, List.filter_append, List.filter_cons, if_pos hl] at hmx
    simp only [List.length_append, List.length_cons] at hmx
    have hn : PoolCall.locks (.stmt t' q' p') = false := by
      cases hb : PoolCall.locks (.stmt t' q' p') with
      | false => rfl
      | true =>
        exfalso
        rcases List.mem_append.1 hm with hx | hx
        · have := List.length_pos_of_mem (List.mem_filter (p := fun x : PoolCall => x.locks).2 ⟨hx, hb⟩)
          omega
        · have := List.length_pos_of_mem (List.mem_filter (p := fun x : PoolCall => x.locks).2 ⟨hx, hb⟩)
          omega
    constructor <;> rintro rfl <;> cases hn

theorem PoolStep.limit_eq {k : PoolActor} {s s' : PoolSys} (hs : PoolStep k s s') : s'.limit = s.limit := by
  cases hs <;> rfl

theorem PoolReachable.limit {c : PoolConfig} {s : PoolSys} (h : PoolReachable c s) :
    s.limit = if c.maxOpen < 0 then 0 else c.maxOpen := by
  induction h with
  | init =>
    have hi : ∀ (p : SqlPool) (n : Int), (p.setMaxIdle n).openLimit = p.openLimit := by
      intro p n; unfold SqlPool.setMaxIdle; simp only; repeat' split
      all_goals rfl
    show ((SqlPool.fresh.setMaxIdle c.maxIdle).setMaxOpen c.maxOpen).openLimit = _
    unfold SqlPool.setMaxOpen
    simp only
    by_cases hneg : c.maxOpen < 0
    · simp [hneg]
    · simp only [if_neg hneg]
      split
      · rw [hi]
      · rfl
  | step _ hs ih => rw [hs.limit_eq, ih]

/-! ## Progress -/

theorem nodup_owners {l : List TxOwner} (h : l.Nodup) : l.length ≤ 2 := by
  match l, h with
  | [], _ => simp
  | [_], _ => simp
  | [_, _], _ => simp
  | a :: b :: c :: _, h =>
    simp only [List.nodup_cons, List.mem_cons, not_or] at h
    cases a <;> cases b <;> cases c <;> simp_all

theorem conns_le_owners (l : List PoolCall)
    (h : ∀ c ∈ l, c.conns ≤ if c.tx?.isSome then 1 else 0) :
    (l.map (·.conns)).sum ≤ (l.filterMap fun c => c.tx?.map (·.owner)).length := by
  induction l with
  | nil => simp
  | cons c l ih =>
    have h1 := h c (by simp)
    have h2 := ih fun x hx => h x (by simp [hx])
    simp only [List.map_cons, List.sum_cons, List.filterMap_cons]
    cases ht : c.tx? with
    | none => rw [ht] at h1; simp at h1; simp only [Option.map_none]; omega
    | some t => rw [ht] at h1; simp at h1; simp only [Option.map_some, List.length_cons]; omega

theorem tx_runs (s : PoolSys) (pre post : List PoolCall) (t : TxInfo) (h : s.calls = pre ++ .tx t :: post) :
    ∃ s', PoolStep .run s s' := by
  obtain ⟨o, qs, todo⟩ := t
  cases todo with
  | nil => exact ⟨_, .commit s pre post o qs true h⟩
  | cons q rest => exact ⟨_, .next s pre post o qs rest q h⟩

theorem PoolInv.progress {s : PoolSys} (h : PoolInv s) (hl : s.limit ≤ 0 ∨ 3 ≤ s.limit) (hne : s.calls ≠ []) :
    ∃ s', PoolStep .run s s' := by
  apply Classical.byContradiction
  intro hno
  have hno : ∀ s', ¬ PoolStep .run s s' := fun s' hs => hno ⟨s', hs⟩
  have split : ∀ c ∈ s.calls, ∃ pre post, s.calls = pre ++ c :: post := fun c hc => List.append_of_mem hc
  have h1 : ∀ c ∈ s.calls, c.conns ≤ if c.tx?.isSome then 1 else 0 := by
    intro c hc
    obtain ⟨pre, post, he⟩ := split c hc
    cases c with
    | stmt t q p =>
      cases p with
      | prepping => exact absurd (.prepared s pre post t q he) (hno _)
      | _ => cases t <;> simp [PoolCall.conns, PoolCall.tx?]
    | reading q => exact absurd (.read s pre post q true he) (hno _)
    | begin t => simp [PoolCall.conns]
    | tx t => exact absurd (tx_runs s pre post t he) (fun ⟨s', hs⟩ => hno s' hs)
  have h2 : s.inUse ≤ 2 := Nat.le_trans (conns_le_owners _ h1) (nodup_owners h.owners)
  have hf : s.full = false := by
    cases hf : s.full with
    | false => rfl
    | true => have := full_true hf; omega
  have hk : s.locked = false := by
    cases hk : s.locked with
    | false => rfl
    | true =>
      obtain ⟨c, hc, hcl⟩ := List.any_eq_true.1 hk
      obtain ⟨pre, post, he⟩ := split c hc
      cases c with
      | stmt t q p =>
        cases p with
        | prepping => exact absurd (.prepared s pre post t q he) (hno _)
        | prep => exact absurd (.prep s pre post t q he hf) (hno _)
        | _ => cases hcl
      | _ => cases hcl
  obtain ⟨c, hc⟩ := List.exists_mem_of_ne_nil _ hne
  obtain ⟨pre, post, he⟩ := split c hc
  cases c with
  | stmt t q p =>
    cases p with
    | look => exact hno _ (.look s pre post t q he hk)
    | want => exact hno _ (.lock s pre post t q he hk)
    | prep => exact hno _ (.prep s pre post t q he hf)
    | prepping => exact hno _ (.prepared s pre post t q he)
    | got =>
      cases t with
      | none => exact hno _ (.use s pre post q he hf)
      | some t => exact hno _ (.exec s pre post t q he)
  | reading q => exact hno _ (.read s pre post q true he)
  | begin t => exact hno _ (.begin s pre post t he hf)
  | tx t => exact (tx_runs s pre post t he).elim hno

/-- How many steps are left inside of `prepare` and until the execution. -/
def PrepPhase.left : PrepPhase → Nat
  | .look => 6
  | .want => 5
  | .prep => 4
  | .prepping => 3
  | .got => 2

/-- A bound on the number of steps a call has left. -/
def PoolCall.left : PoolCall → Nat
  | .stmt none _ p => p.left
  | .stmt (some t) _ p => p.left + 7 * t.todo.length + 1
  | .reading _ => 1
  | .begin t => 7 * t.todo.length + 2
  | .tx t => 7 * t.todo.length + 1

/-- A bound on the number of steps all calls under way have left. -/
def PoolSys.left (s : PoolSys) : Nat := (s.calls.map (·.left)).sum

theorem left_move {s : PoolSys} {pre post : List PoolCall} {c d : PoolCall} (h : s.calls = pre ++ c :: post)
    (hd : d.left < c.left) : (s.move pre post d).left < s.left := by
  unfold PoolSys.left
  rw [h]
  simp only [PoolSys.move, List.map_append, List.map_cons, List.sum_append, List.sum_cons]
  omega

theorem left_finish {s : PoolSys} {pre post : List PoolCall} {c d : PoolCall} {ok : Bool}
    (h : s.calls = pre ++ c :: post) (hc : 0 < c.left) : (s.finish pre post d ok).left < s.left := by
  unfold PoolSys.left
  rw [h]
  simp only [PoolSys.finish, List.map_append, List.map_cons, List.sum_append, List.sum_cons]
  omega

theorem left_pos (c : PoolCall) : 0 < c.left := by
  cases c with
  | stmt t q p => cases t <;> cases p <;> simp [PoolCall.left, PrepPhase.left]
  | _ => simp [PoolCall.left]

theorem PoolStep.left_lt {k : PoolActor} {s s' : PoolSys} (hs : PoolStep k s s') (hk : k ≠ .arrive) :
    s'.left < s.left := by
  cases hs with
  | query => exact absurd rfl hk
  | transaction => exact absurd rfl hk
  | cancel _ pre post q p hp hc => exact left_finish hc (left_pos _)
  | look _ pre post t q hc hl =>
    refine left_move hc ?_
    split <;> cases t <;> simp [PoolCall.left, PrepPhase.left]
  | lock _ pre post t q hc hl =>
    refine left_move hc ?_
    split <;> cases t <;> simp [PoolCall.left, PrepPhase.left]
  | prep _ pre post t q hc hf => exact left_move hc (by cases t <;> simp [PoolCall.left, PrepPhase.left])
  | prepared _ pre post t q hc =>
    exact left_move (d := .stmt t q .got) hc (by cases t <;> simp [PoolCall.left, PrepPhase.left])
  | notPrepared _ pre post t q hc => exact left_finish hc (left_pos _)
  | use _ pre post q hc hf => exact left_move hc (by simp [PoolCall.left, PrepPhase.left])
  | read _ pre post q ok hc => exact left_finish hc (left_pos _)
  | begin _ pre post t hc hf => exact left_move hc (by simp [PoolCall.left])
  | next _ pre post o qs rest q hc => exact left_move hc (by simp [PoolCall.left, PrepPhase.left]; omega)
  | exec _ pre post t q hc => exact left_move hc (by simp [PoolCall.left, PrepPhase.left])
  | rollback _ pre post t hc => exact left_finish hc (left_pos _)
  | commit _ pre post o qs ok hc => exact left_finish hc (left_pos _)

theorem PoolRuns.inv {n : Nat} {s s' : PoolSys} (h : PoolRuns n s s') (hi : PoolInv s) :
    PoolInv s' ∧ s'.limit = s.limit ∧ s'.left + n ≤ s.left := by
  induction h with
  | refl => exact ⟨hi, rfl, by omega⟩
  | step _ hs hk ih =>
    obtain ⟨h1, h2, h3⟩ := ih hi
    have := hs.left_lt hk
    exact ⟨h1.step hs, by rw [hs.limit_eq, h2], by omega⟩

/-- What does hold: with no limit on the number of connections (the flag is zero or negative), or with at least three,
requests, background jobs and transactions never block each other for ever. From every state the server can get into:
however the calls under way are scheduled, they come to an end after a bounded number of steps, and as long as one of
them has not returned one of them can go on, without anybody failing or giving up. Missing: limits of one and two
connections. -/
theorem C90_progress_partial {c : PoolConfig} (hc : c.maxOpen ≤ 0 ∨ 3 ≤ c.maxOpen) {s : PoolSys}
    (h : PoolReachable c s) :
    ∃ bound : Nat, ∀ n s', PoolRuns n s s' → n ≤ bound ∧ (s'.calls ≠ [] → ∃ s'', PoolStep .run s' s'') := by
  refine ⟨s.left, fun n s' hr => ?_⟩
  obtain ⟨h1, h2, h3⟩ := hr.inv h.inv
  refine ⟨by omega, fun hne => h1.progress ?_ hne⟩
  rw [h2, h.limit]
  split <;> omega

/-- Every statement of the calls under way has been prepared before. -/
def PoolSys.warm (s : PoolSys) : Prop :=
  ∀ c ∈ s.calls, (∀ t, c.tx? = some t → ∀ q ∈ t.todo, q ∈ s.cache) ∧
    ∀ t q p, c = .stmt t q p → q ∈ s.cache ∧ (p = .look ∨ p = .got)

theorem PoolSys.warm.progress {s : PoolSys} (hw : s.warm) (hne : s.calls ≠ []) :
    ∃ s', PoolStep .run s s' := by
  apply Classical.byContradiction
  intro hno
  have hno : ∀ s', ¬ PoolStep .run s s' := fun s' hs => hno ⟨s', hs⟩
  have split : ∀ c ∈ s.calls, ∃ pre post, s.calls = pre ++ c :: post := fun c hc => List.append_of_mem hc
  have hk : s.locked = false := by
    cases hk : s.locked with
    | false => rfl
    | true =>
      obtain ⟨c, hc, hcl⟩ := List.any_eq_true.1 hk
      cases c with
      | stmt t q p =>
        rcases ((hw _ hc).2 t q p rfl).2 with rfl | rfl <;> cases hcl
      | _ => cases hcl
  have h1 : ∀ c ∈ s.calls, c.conns = 0 := by
    intro c hc
    obtain ⟨pre, post, he⟩ := split c hc
    cases c with
    | stmt t q p =>
      rcases ((hw _ hc).2 t q p rfl).2 with rfl | rfl
      · exact absurd (.look s pre post t q he hk) (hno _)
      · cases t with
        | none => rfl
        | some t => exact absurd (.exec s pre post t q he) (hno _)
    | reading q => exact absurd (.read s pre post q true he) (hno _)
    | begin t => rfl
    | tx t => exact absurd (tx_runs s pre post t he) (fun ⟨s', hs⟩ => hno s' hs)
  have h2 : s.inUse = 0 := by
    unfold PoolSys.inUse
    generalize s.calls = l at h1
    induction l with
    | nil => rfl
    | cons c l ih => simp [h1 c (by simp), ih fun x hx => h1 x (by simp [hx])]
  have hf : s.full = false := by
    cases hf : s.full with
    | false => rfl
    | true => have := full_true hf; omega
  obtain ⟨c, hc⟩ := List.exists_mem_of_ne_nil _ hne
  obtain ⟨pre, post, he⟩ := split c hc
  cases c with
  | stmt t q p =>
    rcases ((hw _ hc).2 t q p rfl).2 with rfl | rfl
    · exact hno _ (.look s pre post t q he hk)
    · cases t with
      | none => exact hno _ (.use s pre post q he hf)
      | some t => exact hno _ (.exec s pre post t q he)
  | reading q => exact hno _ (.read s pre post q true he)
  | begin t => exact hno _ (.begin s pre post t he hf)
  | tx t => exact (tx_runs s pre post t he).elim hno

theorem PoolSys.warm.step {k : PoolActor} {s s' : PoolSys} (hw : s.warm) (hs : PoolStep k s s') (hk : k ≠ .arrive) :
    s'.warm := by
  have keep : ∀ {pre post : List PoolCall} {c d : PoolCall} {e : List (PoolCall × Bool)},
      s.calls = pre ++ c :: post →
      ((∀ t, d.tx? = some t → ∀ q ∈ t.todo, q ∈ s.cache) ∧
        ∀ t q p, d = .stmt t q p → q ∈ s.cache ∧ (p = .look ∨ p = .got)) →
      PoolSys.warm { s with calls := pre ++ d :: post, ended := e } := by
    intro pre post c d e hc hd x hx
    have hx : x ∈ pre ++ d :: post := hx
    rcases List.mem_append.1 hx with hx | hx
    · exact hw x (by rw [hc]; simp [hx])
    · rcases List.mem_cons.1 hx with rfl | hx
      · exact hd
      · exact hw x (by rw [hc]; simp [hx])
  have drop : ∀ {pre post : List PoolCall} {c : PoolCall} {e : List (PoolCall × Bool)},
      s.calls = pre ++ c :: post → PoolSys.warm { s with calls := pre ++ post, ended := e } := by
    intro pre post c e hc x hx
    have hx : x ∈ pre ++ post := hx
    exact hw x (by rw [hc]; rcases List.mem_append.1 hx with hx | hx <;> simp [hx])
  cases hs with
  | query => exact absurd rfl hk
  | transaction => exact absurd rfl hk
  | look _ pre post t q hc hl =>
    obtain ⟨h1, h2⟩ := hw _ (show PoolCall.stmt t q .look ∈ s.calls by rw [hc]; simp)
    refine keep hc ⟨h1, fun t' q' p' he => ?_⟩
    rw [if_pos (h2 t q .look rfl).1] at he
    cases he
    exact ⟨(h2 t q .look rfl).1, Or.inr rfl⟩
  | lock _ pre post t q hc hl =>
    have h := ((hw _ (show PoolCall.stmt t q .want ∈ s.calls by rw [hc]; simp)).2 t q .want rfl).2
    simp at h
  | prep _ pre post t q hc hf =>
    have h := ((hw _ (show PoolCall.stmt t q .prep ∈ s.calls by rw [hc]; simp)).2 t q .prep rfl).2
    simp at h
  | prepared _ pre post t q hc =>
    have h := ((hw _ (show PoolCall.stmt t q .prepping ∈ s.calls by rw [hc]; simp)).2 t q .prepping rfl).2
    simp at h
  | notPrepared _ pre post t q hc => exact drop hc
  | use _ pre post q hc hf => exact keep hc ⟨nofun, nofun⟩
  | read _ pre post q ok hc => exact drop hc
  | begin _ pre post t hc hf =>
    obtain ⟨h1, _⟩ := hw _ (show PoolCall.begin t ∈ s.calls by rw [hc]; simp)
    exact keep hc ⟨h1, nofun⟩
  | next _ pre post o qs rest q hc =>
    obtain ⟨h1, _⟩ := hw _ (show PoolCall.tx ⟨o, qs, q :: rest⟩ ∈ s.calls by rw [hc]; simp)
    have h1 := h1 _ rfl
    refine keep hc ⟨fun t ht x hx => ?_, fun t' q' p' he => ?_⟩
    · cases ht; exact h1 x (by simp at hx ⊢; exact Or.inr hx)
    · cases he; exact ⟨h1 q (by simp), Or.inl rfl⟩
  | exec _ pre post t q hc =>
    obtain ⟨h1, _⟩ := hw _ (show PoolCall.stmt (some t) q .got ∈ s.calls by rw [hc]; simp)
    exact keep hc ⟨h1, nofun⟩
  | rollback _ pre post t hc => exact drop hc
  | commit _ pre post o qs ok hc => exact drop hc
  | cancel _ pre post q p hp hc => exact drop hc

/-- What also holds, for every limit: calls whose statements have all been prepared before come to an end, too. -/
theorem C90_warm_progress_partial {s : PoolSys} (hw : s.warm) :
    ∃ bound : Nat, ∀ n s', PoolRuns n s s' → n ≤ bound ∧ (s'.calls ≠ [] → ∃ s'', PoolStep .run s' s'') := by
  have go : ∀ n s', PoolRuns n s s' → s'.warm ∧ s'.left + n ≤ s.left := by
    intro n s' hr
    induction hr with
    | refl => exact ⟨hw, by omega⟩
    | step _ hs hk ih =>
      have := hs.left_lt hk
      have ih := ih hw
      exact ⟨ih.1.step hs hk, by omega⟩
  refine ⟨s.left, fun n s' hr => ?_⟩
  obtain ⟨h1, h2⟩ := go n s' hr
  exact ⟨by omega, fun hne => h1.progress hne⟩

/-! ## One or two connections -/

/-- Waiting inside of a transaction for the lock, or for a connection while holding the lock. -/
def PoolCall.stuck : PoolCall → Bool
  | .stmt (some _) _ .look => true
  | .stmt (some _) _ .want => true
  | .stmt (some _) _ .prep => true
  | _ => false

/-- The lock is held by a transaction that waits for a connection to prepare its statement, and all connections are held
by transactions waiting for the lock. -/
structure PoolSys.Wedged (s : PoolSys) : Prop where
  pos : 0 < s.limit
  holder : ∃ c ∈ s.calls, c.stuck = true ∧ c.locks = true
  all : s.limit ≤ (((s.calls.filter (·.stuck)).map (·.conns)).sum : Nat)

theorem sum_filter_conns (l : List PoolCall) (f : PoolCall → Bool) :
    (l.map (·.conns)).sum = ((l.filter f).map (·.conns)).sum + ((l.filter fun c => !f c).map (·.conns)).sum := by
  induction l with
  | nil => rfl
  | cons c l ih =>
    simp only [List.map_cons, List.sum_cons, List.filter_cons]
    cases f c <;> simp <;> omega

theorem conns_le_sum {l : List PoolCall} {c : PoolCall} (h : c ∈ l) : c.conns ≤ (l.map (·.conns)).sum := by
  induction l with
  | nil => cases h
  | cons d l ih =>
    simp only [List.map_cons, List.sum_cons]
    rcases List.mem_cons.1 h with rfl | h
    · omega
    · have := ih h; omega

theorem PoolSys.Wedged.step {k : PoolActor} {s s' : PoolSys} (hi : PoolInv s) (h : s.Wedged) (hs : PoolStep k s s') :
    s'.Wedged ∧ (∀ c, (c, true) ∈ s'.ended → (c, true) ∈ s.ended) ∧
      ∀ c ∈ s.calls, (∀ q p, c ≠ .stmt none q p ∨ p ≠ .prep ∧ p ≠ .got) → c ∈ s'.calls := by
  have hlim := hi.limit h.pos
  have hsum := sum_filter_conns s.calls (·.stuck)
  have hzero : ∀ c ∈ s.calls, c.stuck = false → c.conns = 0 := by
    intro c hc hn
    have h1 : c.conns ≤ ((s.calls.filter fun c => !c.stuck).map (·.conns)).sum :=
      conns_le_sum (List.mem_filter.2 ⟨hc, by simp [hn]⟩)
    have h2 := h.all
    unfold PoolSys.inUse at hlim
    omega
  have hfull : s.full = true := by
    have h2 := h.all
    have : s.limit ≤ s.inUse := by unfold PoolSys.inUse; omega
    simp [PoolSys.full, h.pos, this]
  have hlock : s.locked = true := by
    obtain ⟨c, hc, _, hl⟩ := h.holder
    exact List.any_eq_true.2 ⟨c, hc, hl⟩
  have hadd : ∀ (c : PoolCall), PoolSys.Wedged { s with calls := s.calls ++ [c] } := by
    intro c
    refine ⟨h.pos, ?_, ?_⟩
    · obtain ⟨d, hd, h1⟩ := h.holder
      exact ⟨d, List.mem_append_left _ hd, h1⟩
    · have h2 := h.all
      show s.limit ≤ _
      simp only [List.filter_append, List.map_append, List.sum_append]
      omega
  have busy : ∀ {pre post : List PoolCall} {c : PoolCall}, s.calls = pre ++ c :: post → c.stuck = false →
      c.conns ≠ 0 → False := fun hc h1 h2 => h2 (hzero _ (by rw [hc]; simp) h1)
  cases hs with
  | query _ q => exact ⟨hadd _, fun _ h => h, fun c hc _ => List.mem_append_left _ hc⟩
  | transaction _ o qs hn => exact ⟨hadd _, fun _ h => h, fun c hc _ => List.mem_append_left _ hc⟩
  | look _ pre post t q hc hl => rw [hlock] at hl; cases hl
  | lock _ pre post t q hc hl => rw [hlock] at hl; cases hl
  | prep _ pre post t q hc hf => rw [hfull] at hf; cases hf
  | prepared _ pre post t q hc => exact (busy hc (by cases t <;> rfl) (by simp [PoolCall.conns])).elim
  | notPrepared _ pre post t q hc => exact (busy hc (by cases t <;> rfl) (by simp [PoolCall.conns])).elim
  | use _ pre post q hc hf => rw [hfull] at hf; cases hf
  | read _ pre post q ok hc => exact (busy hc rfl (by simp [PoolCall.conns])).elim
  | begin _ pre post t hc hf => rw [hfull] at hf; cases hf
  | next _ pre post o qs rest q hc => exact (busy hc rfl (by simp [PoolCall.conns])).elim
  | exec _ pre post t q hc => exact (busy hc rfl (by simp [PoolCall.conns])).elim
  | rollback _ pre post t hc => exact (busy hc rfl (by simp [PoolCall.conns])).elim
  | commit _ pre post o qs ok hc => exact (busy hc rfl (by simp [PoolCall.conns])).elim
  | cancel _ pre post q p hp hc =>
    have hns : (PoolCall.stmt none q p).stuck = false := by rcases hp with rfl | rfl <;> rfl
    refine ⟨⟨h.pos, ?_, ?_⟩, ?_, ?_⟩
    · obtain ⟨d, hd, h1, h2⟩ := h.holder
      refine ⟨d, ?_, h1, h2⟩
      show d ∈ pre ++ post
      rw [hc] at hd
      rcases List.mem_append.1 hd with hd | hd
      · simp [hd]
      · rcases List.mem_cons.1 hd with rfl | hd
        · rw [hns] at h1; cases h1
        · simp [hd]
    · have h2 := h.all
      show s.limit ≤ _
      rw [hc] at h2
      simp only [PoolSys.finish, List.filter_append, List.filter_cons, hns] at h2 ⊢
      exact h2
    · intro c hm
      rcases List.mem_append.1 hm with hm | hm
      · exact hm
      · simp at hm
    · intro c hm hn
      show c ∈ pre ++ post
      rw [hc] at hm
      rcases List.mem_append.1 hm with hm | hm
      · simp [hm]
      · rcases List.mem_cons.1 hm with rfl | hm
        · rcases hn q p with h1 | h1
          · exact absurd rfl h1
          · rcases hp with rfl | rfl
            · exact absurd rfl h1.1
            · exact absurd rfl h1.2
        · simp [hm]

/-- The server is wedged for ever: whatever happens from now on, no call, old or new, ever returns successfully, and no
call that has not just to give up waiting for a connection ever returns at all. -/
def PoolSys.Hangs (s : PoolSys) : Prop :=
  ∀ s', PoolSteps s s' →
    (∀ c, (c, true) ∈ s'.ended → (c, true) ∈ s.ended) ∧
    ∀ c ∈ s.calls, (∀ q p, c ≠ .stmt none q p ∨ p ≠ .prep ∧ p ≠ .got) → c ∈ s'.calls

theorem PoolSys.Wedged.hangs {s : PoolSys} (hi : PoolInv s) (h : s.Wedged) : s.Hangs := by
  intro s' hs
  have : PoolInv s' ∧ s'.Wedged ∧ (∀ c, (c, true) ∈ s'.ended → (c, true) ∈ s.ended) ∧
      ∀ c ∈ s.calls, (∀ q p, c ≠ .stmt none q p ∨ p ≠ .prep ∧ p ≠ .got) → c ∈ s'.calls := by
    induction hs with
    | refl => exact ⟨hi, h, fun _ h => h, fun _ h _ => h⟩
    | step _ hs ih =>
      obtain ⟨h1, h2, h3, h4⟩ := ih hi h
      obtain ⟨g1, g2, g3⟩ := h2.step h1 hs
      exact ⟨h1.step hs, g1, fun c hc => h3 c (g2 c hc), fun c hc hn => g3 c (h4 c hc hn) hn⟩
  exact this.2.2

/-- False with one connection, which the server accepts as a limit: once a transaction (a compaction, or a batch of two
writes) needs a statement that has not been prepared yet and has got the lock of the cache, nothing works any more. This
holds for every such state that can be reached. -/
theorem C90_one_connection_counterexample {c : PoolConfig} (hc : c.maxOpen = 1) {s : PoolSys} (h : PoolReachable c s)
    {t : TxInfo} {q : Bytes} (ht : .stmt (some t) q .prep ∈ s.calls) : s.Hangs := by
  refine PoolSys.Wedged.hangs h.inv ⟨?_, ⟨_, ht, rfl, rfl⟩, ?_⟩
  · rw [h.limit, hc]; decide
  · rw [h.limit, hc]
    have := conns_le_sum (List.mem_filter.2 ⟨ht, rfl⟩ : PoolCall.stmt (some t) q .prep ∈ s.calls.filter (·.stuck))
    have h1 : (PoolCall.stmt (some t) q .prep).conns = 1 := rfl
    rw [h1] at this
    show (1 : Int) ≤ _
    omega

/-- With one connection: a query has been answered, a compaction has begun, another query waits. -/
def demoOne : PoolSys :=
  { limit := 1, cache := [[7]], ended := [(.reading [7], true)]
    calls := [.stmt (some ⟨.compactor, [[1], [2]], [[2]]⟩) [1] .prep, .stmt none [9] .look] }

/-- Such a state is reached. -/
theorem demoOne_reachable : PoolReachable ⟨5, 1⟩ demoOne :=
  .step (.step (.step (.step (.step (.step (.step (.step (.step (.step (.step (.step (.step .init
    (.query _ [7])) (.look _ [] [] _ _ rfl rfl)) (.lock _ [] [] _ _ rfl rfl)) (.prep _ [] [] _ _ rfl (by decide)))
    (.prepared _ [] [] _ _ rfl)) (.use _ [] [] _ rfl (by decide))) (.read _ [] [] _ true rfl))
    (.transaction _ .compactor [[1], [2]] (by decide))) (.begin _ [] [] _ rfl (by decide)))
    (.next _ [] [] _ _ _ _ rfl)) (.query _ [9])) (.look _ [] [.stmt none [9] .look] _ _ rfl (by decide)))
    (.lock _ [] [.stmt none [9] .look] _ _ rfl (by decide))

example : demoOne.Hangs := C90_one_connection_counterexample rfl demoOne_reachable (t := ⟨.compactor, [[1], [2]], [[2]]⟩)
  (q := [1]) (by decide)

/-- False with two connections as well: a batch of two writes and a compaction that have both begun block each other. -/
theorem C90_two_connections_counterexample : ∃ (c : PoolConfig) (s : PoolSys), c.maxOpen = 2 ∧ PoolReachable c s ∧
    s.Hangs := by
  have hr : PoolReachable ⟨5, 2⟩
      { limit := 2, cache := [], ended := []
        calls := [.stmt (some ⟨.batcher, [[1], [2]], [[2]]⟩) [1] .prep,
          .stmt (some ⟨.compactor, [[3], [4]], [[4]]⟩) [3] .look] } := by
    exact .step (.step (.step (.step (.step (.step (.step (.step .init (.transaction _ .batcher [[1], [2]] nofun))
      (.transaction _ .compactor [[3], [4]] (by decide))) (.begin _ [] _ _ rfl (by decide)))
      (.begin _ [_] [] _ rfl (by decide))) (.next _ [] _ _ _ _ _ rfl)) (.next _ [_] [] _ _ _ _ rfl))
      (.look _ [] _ _ _ rfl (by decide))) (.lock _ [] _ _ _ rfl (by decide))
  exact ⟨_, _, rfl, hr, PoolSys.Wedged.hangs hr.inv ⟨by decide, ⟨_, List.mem_cons_self, rfl, rfl⟩, by decide⟩⟩

/-- The text of a call outside of any transaction. -/
def PoolCall.plain : PoolCall → Option Bytes
  | .stmt none q _ => some q
  | .reading q => some q
  | _ => none

/-- With one connection no transaction ever succeeds that needs a statement nobody uses outside of transactions. The
three statements of a compaction are like that (`/repo/pkg/backend/sqlite/driver.go:647-671`): no compaction succeeds. -/
theorem C90_one_connection_never_compacts {c : PoolConfig} (hc : c.maxOpen = 1) {s : PoolSys} (h : PoolReachable c s)
    {q : Bytes} (h1 : ∀ x ∈ s.calls, x.plain ≠ some q) (h2 : ∀ x ∈ s.ended, x.1.plain ≠ some q) :
    ∀ t, (.tx t, true) ∈ s.ended → q ∉ t.texts := by
  have key : q ∈ s.cache → (∃ x ∈ s.calls, x.plain = some q) ∨ ∃ x ∈ s.ended, x.1.plain = some q := by
    have hlim := h.limit
    rw [hc] at hlim
    clear h1 h2
    induction h with
    | init => intro h; cases h
    | @step k a b ha hs ih =>
      have hla : a.limit = 1 := by rw [← hs.limit_eq, hlim]; rfl
      have ih := ih (by rw [hla]; rfl)
      have hinv := ha.inv
      intro hq
      have keep : ∀ {pre post : List PoolCall} {x d : PoolCall}, a.calls = pre ++ x :: post → d.plain = x.plain →
          q ∈ a.cache → (∃ x ∈ pre ++ d :: post, x.plain = some q) ∨ ∃ x ∈ a.ended, x.1.plain = some q := by
        intro pre post x d hx hd hq
        rcases ih hq with ⟨y, hy, hyq⟩ | h
        · refine Or.inl ?_
          rw [hx] at hy
          rcases List.mem_append.1 hy with hy | hy
          · exact ⟨y, by simp [hy], hyq⟩
          · rcases List.mem_cons.1 hy with rfl | hy
            · exact ⟨d, by simp, by rw [hd, hyq]⟩
            · exact ⟨y, by simp [hy], hyq⟩
        · exact Or.inr h
      have drop : ∀ {pre post : List PoolCall} {x : PoolCall} {ok : Bool}, a.calls = pre ++ x :: post →
          q ∈ a.cache → (∃ x ∈ pre ++ post, x.plain = some q) ∨ ∃ y ∈ a.ended ++ [(x, ok)], y.1.plain = some q := by
        intro pre post x ok hx hq
        rcases ih hq with ⟨y, hy, hyq⟩ | ⟨y, hy, hyq⟩
        · rw [hx] at hy
          rcases List.mem_append.1 hy with hy | hy
          · exact Or.inl ⟨y, by simp [hy], hyq⟩
          · rcases List.mem_cons.1 hy with rfl | hy
            · exact Or.inr ⟨(y, ok), by simp, hyq⟩
            · exact Or.inl ⟨y, by simp [hy], hyq⟩
        · exact Or.inr ⟨y, by simp [hy], hyq⟩
      cases hs with
      | query _ q' =>
        rcases ih hq with ⟨y, hy, hyq⟩ | h
        · exact Or.inl ⟨y, List.mem_append_left _ hy, hyq⟩
        · exact Or.inr h
      | transaction _ o qs hn =>
        rcases ih hq with ⟨y, hy, hyq⟩ | h
        · exact Or.inl ⟨y, List.mem_append_left _ hy, hyq⟩
        · exact Or.inr h
      | look _ pre post t q' hc hl => exact keep hc (by cases t <;> rfl) hq
      | lock _ pre post t q' hc hl => exact keep hc (by cases t <;> rfl) hq
      | prep _ pre post t q' hc hf => exact keep hc (by cases t <;> rfl) hq
      | prepared _ pre post t q' hc =>
        rcases List.mem_append.1 hq with hq | hq
        · exact keep hc (by cases t <;> rfl) hq
        · have hq : q = q' := by simpa using hq
          subst hq
          cases t with
          | none => exact Or.inl ⟨.stmt none q .got, by simp [PoolSys.move], rfl⟩
          | some t =>
            have h3 := hinv.limit (by rw [hla]; decide)
            rw [inUse_split hc, hla] at h3
            simp [PoolCall.conns] at h3
            omega
      | notPrepared _ pre post t q' hc => exact drop hc hq
      | use _ pre post q' hc hf => exact keep hc rfl hq
      | read _ pre post q' ok hc => exact drop hc hq
      | begin _ pre post t hc hf => exact keep hc rfl hq
      | next _ pre post o qs rest q' hc => exact keep hc rfl hq
      | exec _ pre post t q' hc => exact keep hc rfl hq
      | rollback _ pre post t hc => exact drop hc hq
      | commit _ pre post o qs ok hc => exact drop hc hq
      | cancel _ pre post q' p hp hc => exact drop hc hq
  intro t ht hq
  rcases key (h.inv.ended t ht q hq) with ⟨x, hx, he⟩ | ⟨x, hx, he⟩
  · exact h1 x hx he
  · exact h2 x hx he

/-- The texts the driver uses outside of transactions (`/repo/pkg/backend/sqlite/driver.go:479-794`), all of them. -/
def plainTexts : List String :=
  [SqlText.revSQL, SqlText.listSQL, SqlText.listSQL ++ SqlText.limitSuffix, SqlText.listSqlV1_0,
    SqlText.listSqlV1_0 ++ SqlText.limitSuffix, SqlText.revisionIntervalSQL, SqlText.countRevisionSQL,
    SqlText.countRevisionSQLV1_0, SqlText.afterSQLPrefix, SqlText.afterSQL, SqlText.afterSQL ++ SqlText.limitSuffix,
    SqlText.ttlSQL, SqlText.deleteRevSQL, SqlText.deleteSQL, SqlText.createSQL, SqlText.updateSQL,
    "
\t\tSELECT (page_count - freelist_count) * page_size
\t\tFROM pragma_page_count(), pragma_page_size(), pragma_freelist_count()"]

/-- None of them is a statement of a compaction. -/
theorem C90_compaction_texts : ∀ t ∈ plainTexts,
    t ≠ SqlText.compactSuperseded ∧ t ≠ SqlText.compactTombstones ∧ t ≠ SqlText.updateCompactSQL := by
  decide +kernel

/-- The hypotheses of the previous theorem are met: the first statement of the waiting compaction. -/
example : (∀ x ∈ demoOne.calls, x.plain ≠ some [1]) ∧ ∀ x ∈ demoOne.ended, x.1.plain ≠ some [1] := by decide

/-- A transaction whose statements are all prepared, and one connection. -/
def demoWarm : PoolSys :=
  { limit := 1, cache := [[1], [2]], ended := [], calls := [.tx ⟨.batcher, [[1], [2]], [[1], [2]]⟩, .stmt none [2] .look] }

example : demoWarm.warm := by
  intro c hc
  simp only [demoWarm, List.mem_cons, List.not_mem_nil, or_false] at hc
  rcases hc with rfl | rfl
  · refine ⟨fun t ht q hq => ?_, nofun⟩
    cases ht; exact hq
  · refine ⟨nofun, fun t q p he => ?_⟩
    cases he; exact ⟨by decide, Or.inl rfl⟩

/-- The default of five connections (`/repo/cmd/root.go:231`) is fine, and so is no limit. -/
example : (5 : Int) ≤ 0 ∨ 3 ≤ (5 : Int) := by decide

end Verif
