import Verif.Spec.History
import Verif.Lemmas.Bytes
import Verif.Lemmas.List
/-!
# Lemmas about histories
-/

namespace Verif

/-- Revisions strictly increase along the history and are positive. -/
structure History.Wf (h : History) : Prop where
  sorted : h.Pairwise (fun a b => a.rev < b.rev)
  pos : ∀ c ∈ h, 0 < c.rev

theorem replay_eq_filter (h : History) (k : Bytes) :
    h.replay k = (h.filter fun c => c.key == k).foldl (fun cur c => c.applyTo cur) none := by
  unfold History.replay
  rw [List.foldl_filter]

theorem at_eq_filter (h : History) (r : Int) (k : Bytes) :
    h.at r k = (h.filter fun c => (c.key == k) && decide (c.rev ≤ r)).foldl
      (fun cur c => c.applyTo cur) none := by
  unfold History.at
  rw [replay_eq_filter, List.filter_filter]

theorem at_of_no_commit {h : History} {r : Int} {k : Bytes}
    (hn : ∀ c ∈ h, c.key = k → ¬ c.rev ≤ r) : h.at r k = none := by
  rw [at_eq_filter]
  have : (h.filter fun c => (c.key == k) && decide (c.rev ≤ r)) = [] := by
    rw [List.filter_eq_nil_iff]
    intro c hc
    simp only [Bool.and_eq_true, beq_iff_eq, decide_eq_true_eq, not_and]
    exact hn c hc
  rw [this]; rfl

theorem History.Wf.nil : History.Wf [] := ⟨List.Pairwise.nil, by simp⟩

theorem History.Wf.left {h t : History} (w : History.Wf (h ++ t)) : History.Wf h :=
  ⟨(List.pairwise_append.1 w.sorted).1, fun c hc => w.pos c (List.mem_append_left _ hc)⟩

theorem Wf_rev_inj {h : History} (w : h.Wf) {a b : Commit} (ha : a ∈ h) (hb : b ∈ h)
    (e : a.rev = b.rev) : a = b := by
  have hs := w.sorted
  clear w
  induction h with
  | nil => simp at ha
  | cons x xs ih =>
    rw [List.pairwise_cons] at hs
    rcases List.mem_cons.1 ha with rfl | ha' <;> rcases List.mem_cons.1 hb with rfl | hb'
    · rfl
    · have := hs.1 b hb'; omega
    · have := hs.1 a ha'; omega
    · exact ih ha' hb' hs.2

/-- `at` is determined by the last commit on the key. -/
theorem at_of_last {h : History} (w : h.Wf) {r : Int} {k : Bytes} {c : Commit} (hc : c ∈ h)
    (hk : c.key = k) (hr : c.rev ≤ r) (hl : ∀ c' ∈ h, c'.key = k → c'.rev ≤ r → c'.rev ≤ c.rev) :
    h.at r k = c.applyTo (h.at (c.rev - 1) k) := by
  obtain ⟨h1, h2, rfl⟩ := List.append_of_mem hc
  have hs := w.sorted
  rw [List.pairwise_append, List.pairwise_cons] at hs
  obtain ⟨_, ⟨hs2, _⟩, hs1⟩ := hs
  rw [at_eq_filter, at_eq_filter]
  have e2 : (h2.filter fun c => (c.key == k) && decide (c.rev ≤ r)) = [] := by
    rw [List.filter_eq_nil_iff]
    intro c' hc'
    simp only [Bool.and_eq_true, beq_iff_eq, decide_eq_true_eq, not_and]
    intro hk' hr'
    have := hl c' (by simp [hc']) hk' hr'
    have := hs2 c' hc'
    omega
  have e2' : (h2.filter fun c' => (c'.key == k) && decide (c'.rev ≤ c.rev - 1)) = [] := by
    rw [List.filter_eq_nil_iff]
    intro c' hc'
    simp only [Bool.and_eq_true, decide_eq_true_eq, not_and]
    intro _
    have := hs2 c' hc'
    omega
  have e1 : (h1.filter fun c => (c.key == k) && decide (c.rev ≤ r))
      = (h1.filter fun c' => (c'.key == k) && decide (c'.rev ≤ c.rev - 1)) := by
    apply List.filter_congr
    intro c' hc'
    have := hs1 c' hc' c (by simp)
    have a : c'.rev ≤ r := by omega
    have b : c'.rev ≤ c.rev - 1 := by omega
    simp [a, b]
  have ec : ¬ c.rev ≤ c.rev - 1 := by omega
  simp [List.filter_append, e1, e2, e2', hk, hr, ec]

/-- Either no commit touches `k` up to `r`, or there is a last one. -/
theorem exists_last {h : History} (r : Int) (k : Bytes) :
    (∀ c ∈ h, c.key = k → ¬ c.rev ≤ r) ∨
    (∃ c ∈ h, c.key = k ∧ c.rev ≤ r ∧ ∀ c' ∈ h, c'.key = k → c'.rev ≤ r → c'.rev ≤ c.rev) := by
  induction h with
  | nil => left; simp
  | cons x xs ih =>
    by_cases hx : x.key = k ∧ x.rev ≤ r
    · right
      rcases ih with ih | ⟨c, hc, hk, hr, hl⟩
      · refine ⟨x, by simp, hx.1, hx.2, ?_⟩
        intro c' hc' hk' hr'
        rcases List.mem_cons.1 hc' with rfl | h'
        · omega
        · exact absurd hr' (ih c' h' hk')
      · by_cases hlt : c.rev ≤ x.rev
        · refine ⟨x, by simp, hx.1, hx.2, ?_⟩
          intro c' hc' hk' hr'
          rcases List.mem_cons.1 hc' with rfl | h'
          · omega
          · have := hl c' h' hk' hr'; omega
        · refine ⟨c, by simp [hc], hk, hr, ?_⟩
          intro c' hc' hk' hr'
          rcases List.mem_cons.1 hc' with rfl | h'
          · omega
          · exact hl c' h' hk' hr'
    · rcases ih with ih | ⟨c, hc, hk, hr, hl⟩
      · left
        intro c hc hk hr
        rcases List.mem_cons.1 hc with rfl | h'
        · exact hx ⟨hk, hr⟩
        · exact ih c h' hk hr
      · right
        refine ⟨c, by simp [hc], hk, hr, ?_⟩
        intro c' hc' hk' hr'
        rcases List.mem_cons.1 hc' with rfl | h'
        · exact absurd ⟨hk', hr'⟩ hx
        · exact hl c' h' hk' hr'

/-- What `at … = some kv` means. -/
theorem at_some_inv {h : History} (w : h.Wf) {r : Int} {k : Bytes} {kv : KV}
    (e : h.at r k = some kv) :
    kv.key = k ∧ kv.modRev ≤ r ∧ 0 < kv.modRev ∧
    (∃ c ∈ h, c.rev = kv.modRev ∧ c.key = k ∧ c.write = some (kv.value, kv.lease)) ∧
    (∀ c ∈ h, c.key = k → c.rev ≤ r → c.rev ≤ kv.modRev) := by
  rcases exists_last (h := h) r k with hn | ⟨c, hc, hk, hr, hl⟩
  · rw [at_of_no_commit hn] at e; cases e
  · rw [at_of_last w hc hk hr hl] at e
    unfold Commit.applyTo at e
    split at e
    · cases e
    · rename_i v l hw
      cases e
      exact ⟨hk, hr, w.pos c hc, ⟨c, hc, rfl, hk, hw⟩, hl⟩

/-- `at … = none` with a commit present: the last commit is a delete. -/
theorem at_none_last {h : History} (w : h.Wf) {r : Int} {k : Bytes} (e : h.at r k = none)
    {c : Commit} (hc : c ∈ h) (hk : c.key = k) (hr : c.rev ≤ r)
    (hl : ∀ c' ∈ h, c'.key = k → c'.rev ≤ r → c'.rev ≤ c.rev) : c.write = none := by
  rw [at_of_last w hc hk hr hl] at e
  unfold Commit.applyTo at e
  split at e
  · assumption
  · cases e

/-- No commit on `k` in `(a, b]`: same state. -/
theorem at_eq_of_no_between {h : History} {a b : Int} {k : Bytes} (hab : a ≤ b)
    (hn : ∀ c ∈ h, c.key = k → c.rev ≤ b → c.rev ≤ a) : h.at b k = h.at a k := by
  rw [at_eq_filter, at_eq_filter]
  congr 1
  apply List.filter_congr
  intro c hc
  by_cases hk : c.key = k
  · by_cases hb : c.rev ≤ b
    · have := hn c hc hk hb; simp [hk, hb, this]
    · have : ¬ c.rev ≤ a := by omega
      simp [hb, this]
  · have : (c.key == k) = false := beq_eq_false_iff_ne.2 hk
    rw [this]; rfl

theorem at_append_of_gt {h t : History} {r : Int} {k : Bytes} (ht : ∀ c ∈ t, r < c.rev) :
    History.at (h ++ t) r k = h.at r k := by
  rw [at_eq_filter, at_eq_filter, List.filter_append]
  have : (t.filter fun c => (c.key == k) && decide (c.rev ≤ r)) = [] := by
    rw [List.filter_eq_nil_iff]
    intro c hc
    have := ht c hc
    have : ¬ c.rev ≤ r := by omega
    simp [this]
  rw [this, List.append_nil]

theorem now_eq_at {h : History} {r : Int} {k : Bytes} (hr : ∀ c ∈ h, c.rev ≤ r) :
    h.at r k = h.now k := by
  unfold History.at History.now
  congr 1
  rw [List.filter_eq_self]
  intro c hc; simp [hr c hc]

theorem now_snoc (h : History) (c : Commit) (k : Bytes) :
    History.now (h ++ [c]) k = if c.key = k then c.applyTo (h.now k) else h.now k := by
  unfold History.now History.replay
  simp [List.foldl_append]

theorem top_nil : History.top [] = 0 := rfl

theorem top_snoc (h : History) (c : Commit) : History.top (h ++ [c]) = c.rev := by
  simp [History.top]

theorem le_top {h : History} (w : h.Wf) {c : Commit} (hc : c ∈ h) : c.rev ≤ h.top := by
  rcases List.eq_nil_or_concat h with rfl | ⟨h', d, rfl⟩
  · simp at hc
  · rw [List.concat_eq_append] at *
    rw [top_snoc]
    have hs := w.sorted
    rw [List.pairwise_append] at hs
    rcases List.mem_append.1 hc with h1 | h1
    · have := hs.2.2 c h1 d (by simp); omega
    · simp at h1; subst h1; omega

theorem top_nonneg {h : History} (w : h.Wf) : 0 ≤ h.top := by
  rcases List.eq_nil_or_concat h with rfl | ⟨h', d, rfl⟩
  · simp [top_nil]
  · rw [List.concat_eq_append] at *
    rw [top_snoc]
    have := w.pos d (by simp); omega

theorem top_mem {h : History} (hne : h ≠ []) : ∃ c ∈ h, c.rev = h.top := by
  rcases List.eq_nil_or_concat h with rfl | ⟨h', d, rfl⟩
  · exact absurd rfl hne
  · rw [List.concat_eq_append] at *
    exact ⟨d, by simp, by rw [top_snoc]⟩

theorem Wf_snoc {h : History} (w : h.Wf) {c : Commit} (hc : h.top < c.rev) :
    History.Wf (h ++ [c]) := by
  constructor
  · rw [List.pairwise_append]
    refine ⟨w.sorted, by simp, ?_⟩
    intro a ha b hb
    simp at hb; subst hb
    have := le_top w ha; omega
  · intro a ha
    rcases List.mem_append.1 ha with h1 | h1
    · exact w.pos a h1
    · simp at h1; subst h1; have := top_nonneg w; omega

/-- Extending a well-formed history adds only newer revisions. -/
theorem ext_gt {h t : History} (w : History.Wf (h ++ t)) {c : Commit} (hc : c ∈ t) :
    h.top < c.rev := by
  rcases List.eq_nil_or_concat h with rfl | ⟨h', d, rfl⟩
  · rw [top_nil]; exact w.pos c (by simp [hc])
  · rw [List.concat_eq_append] at *
    rw [top_snoc]
    have hs := w.sorted
    rw [List.pairwise_append] at hs
    exact hs.2.2 d (by simp) c hc

/-- Old revisions read the same in an extended history. -/
theorem at_ext {h t : History} (w : History.Wf (h ++ t)) {r : Int} (hr : r ≤ h.top) (k : Bytes) :
    History.at (h ++ t) r k = h.at r k :=
  at_append_of_gt fun c hc => by have := ext_gt w hc; omega

theorem top_append_le {h t : History} (w : History.Wf (h ++ t)) :
    h.top ≤ History.top (h ++ t) := by
  rcases List.eq_nil_or_concat t with rfl | ⟨t', d, rfl⟩
  · simp
  · rw [List.concat_eq_append] at *
    rw [← List.append_assoc, top_snoc]
    have := ext_gt w (c := d) (by simp); omega

theorem at_ge_top {h : History} (w : h.Wf) {r : Int} (hr : h.top ≤ r) (k : Bytes) :
    h.at r k = h.now k :=
  now_eq_at fun _ hc => by have := le_top w hc; omega

theorem at_key {h : History} (w : h.Wf) {r : Int} {k : Bytes} {kv : KV} (e : h.at r k = some kv) :
    kv.key = k := (at_some_inv w e).1

/-- Two listings of the same thing are equal. -/
theorem IsListing.unique {h : History} {r : Int} {lo hi : Bytes} {l₁ l₂ : List KV}
    (h₁ : IsListing h r lo hi l₁) (h₂ : IsListing h r lo hi l₂) : l₁ = l₂ := by
  apply pairwise_ext (lt := fun a b : KV => blt a.key b.key = true) _ h₁.1 h₂.1
  · intro x; rw [h₁.2 x, h₂.2 x]
  · intro a b hab hba
    rw [blt_asymm hab] at hba; cases hba

/-- The create revision of a version is the revision of a put that created the key, after which the key
existed without interruption. -/
theorem createRev_commit {h : History} (w : h.Wf) {r : Int} {k : Bytes} {kv : KV} (e : h.at r k = some kv) :
    ∃ c ∈ h, c.key = k ∧ c.rev = kv.createRev ∧ c.write ≠ none ∧
      (∀ d, kv.createRev ≤ d → d ≤ r → h.at d k ≠ none) ∧ h.at (kv.createRev - 1) k = none ∧
      kv.createRev ≤ kv.modRev := by
  have main : ∀ n : Nat, ∀ r kv, r.toNat ≤ n → h.at r k = some kv →
      ∃ c ∈ h, c.key = k ∧ c.rev = kv.createRev ∧ c.write ≠ none ∧
      (∀ d, kv.createRev ≤ d → d ≤ r → h.at d k ≠ none) ∧ h.at (kv.createRev - 1) k = none ∧
      kv.createRev ≤ kv.modRev := by
    intro n
    induction n with
    | zero =>
      intro r kv hn e
      obtain ⟨_, h1, h2, _⟩ := at_some_inv w e
      omega
    | succ n ih =>
      intro r kv hn e
      obtain ⟨_, h1, h2, ⟨c, hc, hcr, hck, hcw⟩, hl⟩ := at_some_inv w e
      have hkeep : ∀ d, kv.modRev ≤ d → d ≤ r → h.at d k ≠ none := by
        intro d hd hdr hn
        have : h.at r k = h.at d k := at_eq_of_no_between hdr (fun c' hc' hk' hr' => by
          have := hl c' hc' hk' hr'; omega)
        rw [this, hn] at e; cases e
      have hat := at_of_last w (r := r) hc hck (by omega) (fun c' hc' hk' hr' => by
        have := hl c' hc' hk' hr'; omega)
      rw [e] at hat
      unfold Commit.applyTo at hat
      rw [hcw] at hat
      cases hp : h.at (c.rev - 1) k with
      | none =>
        rw [hp] at hat
        have hcre : kv.createRev = c.rev := by rw [Option.some.inj hat]
        refine ⟨c, hc, hck, hcre.symm, by rw [hcw]; simp, ?_, by rw [hcre]; exact hp, by omega⟩
        intro d hd hdr
        exact hkeep d (by omega) hdr
      | some p =>
        rw [hp] at hat
        have hcre : kv.createRev = p.createRev := by rw [Option.some.inj hat]
        obtain ⟨c', hc', a1, a2, a3, a4, a5, a6⟩ := ih (c.rev - 1) p (by omega) hp
        have hpm := (at_some_inv w hp).2.1
        refine ⟨c', hc', a1, by omega, a3, ?_, by rw [hcre]; exact a5, by omega⟩
        intro d hd hdr
        by_cases hlt : d ≤ c.rev - 1
        · exact a4 d (by omega) hlt
        · exact hkeep d (by omega) hdr
  exact main r.toNat r kv (Nat.le_refl _) e

/-- Two versions of a key belong to the same incarnation exactly if no deletion lies between them. -/
theorem incarnation {h : History} (w : h.Wf) {q q' : Int} {k : Bytes} {kv kv' : KV} (e : h.at q k = some kv)
    (e' : h.at q' k = some kv') (hle : kv.modRev ≤ kv'.modRev) :
    kv.createRev = kv'.createRev ↔
      ¬ ∃ c ∈ h, c.key = k ∧ c.write = none ∧ kv.modRev < c.rev ∧ c.rev < kv'.modRev := by
  -- normalise to the mod revisions
  have norm : ∀ {q : Int} {kv : KV}, h.at q k = some kv → h.at kv.modRev k = some kv := by
    intro q kv e
    obtain ⟨_, h1, _, _, h2⟩ := at_some_inv w e
    rw [← at_eq_of_no_between h1 h2]; exact e
  have e1 := norm e
  have e2 := norm e'
  obtain ⟨c, hc, hck, hcr, hcw, hal, hab, hcm⟩ := createRev_commit w e1
  obtain ⟨c', hc', hck', hcr', hcw', hal', hab', hcm'⟩ := createRev_commit w e2
  constructor
  · rintro heq ⟨d, hd, hdk, hdw, h1, h2⟩
    apply hal' d.rev (by omega) (by omega)
    rw [at_of_last w hd hdk (Int.le_refl _) (fun x _ _ hx => hx)]
    unfold Commit.applyTo; rw [hdw]
  · intro hno
    -- alive at the last commit before
    have alive : ∀ x, kv.modRev ≤ x → x ≤ kv'.modRev → h.at x k ≠ none := by
      intro x h1 h2 hnone
      rcases exists_last (h := h) x k with hn | ⟨d, hd, hdk, hdr, hl⟩
      · obtain ⟨d, hd, hdr, hdk, _⟩ := (at_some_inv w e1).2.2.2.1
        exact hn d hd hdk (by omega)
      · have hdw := at_none_last w hnone hd hdk hdr hl
        obtain ⟨m, hm, hmr, hmk, hmw⟩ := (at_some_inv w e1).2.2.2.1
        have hge := hl m hm hmk (by omega)
        obtain ⟨m', hm', hmr', hmk', hmw'⟩ := (at_some_inv w e2).2.2.2.1
        have hne : d.rev ≠ m.rev := fun x => by
          have := Wf_rev_inj w hd hm x; rw [this, hmw] at hdw; cases hdw
        have hne' : d.rev ≠ m'.rev := fun x => by
          have := Wf_rev_inj w hd hm' x; rw [this, hmw'] at hdw; cases hdw
        exact hno ⟨d, hd, hdk, hdw, by omega, by omega⟩
    have h1 : ¬ kv.createRev < kv'.createRev := fun hlt => by
      by_cases hx : kv.modRev ≤ kv'.createRev - 1
      · exact alive _ hx (by omega) hab'
      · exact hal (kv'.createRev - 1) (by omega) (by omega) hab'
    have h2 : ¬ kv'.createRev < kv.createRev := fun hlt =>
      hal' (kv.createRev - 1) (by omega) (by omega) hab
    omega

end Verif
