import Verif.Props.Writes
import Verif.Lemmas.Stmts
import Verif.Spec.Etcd
/-!
# Properties of transactions (C20, C21, C24, C26, C27, C60) and of retries (C52)
-/

namespace Verif

/-! ## C20 At most one winner per expected revision -/

/-- Two observed calls `p` and `q` in one system: their statements are interleaved with each other and with
arbitrary steps of the environment in any way (in particular one may run completely before the other). The
trace records for each statement whether it belongs to `p` (`true`) or to `q` (`false`). -/
inductive Run2 {α β : Type} : Sys → Prog α → Prog β → List (Bool × Obs) → α → β → Sys → Prop where
  | done (s : Sys) (a : α) (b : β) : Run2 s (.ret a) (.ret b) [] a b s
  | env {s s' s'' : Sys} {p : Prog α} {q : Prog β} {t : List (Bool × Obs)} {a : α} {b : β} :
      Step s s' → Run2 s' p q t a b s'' → Run2 s p q t a b s''
  | left {s s'' : Sys} {eff : DB → DB} {k : Outcome → DB → Prog α} {q : Prog β} {t : List (Bool × Obs)}
      {a : α} {b : β} (o : Outcome) :
      Run2 { s with world := s.world.exec eff o } (k o s.world.db) q t a b s'' →
      Run2 s (.stmt eff k) q ((true, ⟨s.world, o, s.world.exec eff o⟩) :: t) a b s''
  | right {s s'' : Sys} {eff : DB → DB} {k : Outcome → DB → Prog β} {p : Prog α} {t : List (Bool × Obs)}
      {a : α} {b : β} (o : Outcome) :
      Run2 { s with world := s.world.exec eff o } p (k o s.world.db) t a b s'' →
      Run2 s p (.stmt eff k) ((false, ⟨s.world, o, s.world.exec eff o⟩) :: t) a b s''

/-- The statements of one of the two calls. -/
def side (who : Bool) (t : List (Bool × Obs)) : List Obs := (t.filter fun x => x.1 == who).map (·.2)

theorem run2_facts {α β : Type} {s s' : Sys} {p : Prog α} {q : Prog β} {t : List (Bool × Obs)} {a : α} {b : β}
    (r : Run2 s p q t a b s') (h : SysInv s) (hp : Safe p s.world) (hq : Safe q s.world) :
    Path p (side true t) a ∧ Path q (side false t) b ∧ Facts s.world (t.map (·.2)) s'.world ∧ SysInv s' := by
  have cons : ∀ {w w' : World} {eff : DB → DB} {o : Outcome} {l : List Obs}, Inv w → Ext w (w.exec eff o) →
      Facts (w.exec eff o) l w' → Facts w (⟨w, o, w.exec eff o⟩ :: l) w' := by
    intro w w' eff o l i h1 f
    refine ⟨?_, ?_, ?_, ?_, h1.trans f.total⟩
    · intro ob hob
      rcases List.mem_cons.1 hob with rfl | hob
      · exact Ext.refl i
      · exact h1.trans (f.pre ob hob)
    · intro ob hob
      rcases List.mem_cons.1 hob with rfl | hob
      · exact h1
      · exact f.step ob hob
    · intro ob hob
      rcases List.mem_cons.1 hob with rfl | hob
      · exact f.total
      · exact f.post ob hob
    · rw [List.pairwise_cons]
      exact ⟨fun b hb => f.pre b hb, f.chain⟩
  induction r with
  | done s a b => exact ⟨.ret a, .ret b, Facts.nil h.inv, h⟩
  | env st _ ih =>
    obtain ⟨h1, h2⟩ := h.step st
    obtain ⟨a1, a2, a3, a4⟩ := ih h1 (safe_ext h2 hp) (safe_ext h2 hq)
    exact ⟨a1, a2, ⟨fun ob hob => h2.trans (a3.pre ob hob), a3.step, a3.post, a3.chain,
      h2.trans a3.total⟩, a4⟩
  | @left s s'' eff k q t a b o _ ih =>
    obtain ⟨h1, h2⟩ := hp s.world (Ext.refl h.inv) o
    have hinv : SysInv { s with world := s.world.exec eff o } :=
      ⟨h1.inv, fun q hq => safe_ext h1 (h.safe q hq)⟩
    obtain ⟨a1, a2, a3, a4⟩ := ih hinv h2 (safe_ext h1 hq)
    exact ⟨by simpa [side] using Path.step s.world o a1, by simpa [side] using a2, cons h.inv h1 a3, a4⟩
  | @right s s'' eff k p t a b o _ ih =>
    obtain ⟨h1, h2⟩ := hq s.world (Ext.refl h.inv) o
    have hinv : SysInv { s with world := s.world.exec eff o } :=
      ⟨h1.inv, fun q hq => safe_ext h1 (h.safe q hq)⟩
    obtain ⟨a1, a2, a3, a4⟩ := ih hinv (safe_ext h1 hp) h2
    exact ⟨by simpa [side] using a1, by simpa [side] using Path.step s.world o a2, cons h.inv h1 a3, a4⟩

/-- `req` is an update or a delete transaction of `key` with expected revision `r`. -/
def ExpectsRev (req : TxnReq) (key : Bytes) (r : Int) : Prop :=
  (∃ value lease, req = updateTxn key r value lease) ∨ req = deleteTxn key r

theorem ExpectsRev.writtenKey {req : TxnReq} {key : Bytes} {r : Int} (h : ExpectsRev req key r) :
    req.writtenKey = some key := by
  rcases h with ⟨v, l, rfl⟩ | rfl <;> rfl

theorem ExpectsRev.outcome {req : TxnReq} {key : Bytes} {r : Int} (h : ExpectsRev req key r) (hr : r ≠ 0)
    (hk : key ≠ compactRevKey) {w w' : World} {t : List Obs} {v1 : Bool} {resp : Except ApiErr TxnResp}
    (f : Facts w t w') (hp : Path (Limited.txn v1 req) t resp) :
    ∃ wr, CasOutcome t key r wr v1 resp := by
  rcases h with ⟨v, l, rfl⟩ | rfl
  · rw [txn_update_eq] at hp; exact ⟨_, (update_outcome hk hr f hp).1⟩
  · rw [txn_delete_eq] at hp; exact ⟨_, (delete_outcome hk f hp).1⟩

/-- A successful compare-and-swap committed on its key while the key had the expected revision. -/
theorem cas_success {req : TxnReq} {key : Bytes} {r : Int} (h : ExpectsRev req key r) (hr : r ≠ 0)
    (hk : key ≠ compactRevKey) {w w' : World} {t : List Obs} {v1 : Bool} {resp : TxnResp}
    (f : Facts w t w') (hp : Path (Limited.txn v1 req) t (.ok resp)) (hs : resp.succeeded = true) :
    ∃ ob ∈ t, AtRev key r ob.pre ∧ ∃ wr, ob.post.hist = ob.pre.hist ++ [⟨ob.pre.hist.top + 1, key, wr⟩] := by
  have fin : ∀ {st : DB → DB × ExecResult} {wr : Option (Bytes × Int)} {mk : Int → RespOp},
      CasStmt st (AtRev key r) key wr →
      Path (((execute st).andThen fun r => .ret (.ok (writeResult r))).andThen fun (rev', succeeded) =>
        if succeeded then .ret (.ok { header := rev', succeeded := true, responses := [mk rev'] })
        else Limited.elseRange v1 key rev') t (.ok resp) →
      ∃ ob ∈ t, AtRev key r ob.pre ∧ ∃ wr, ob.post.hist = ob.pre.hist ++ [⟨ob.pre.hist.top + 1, key, wr⟩] := by
    intro st wr mk c hp
    obtain ⟨t₁, t₂, ⟨rev', ok⟩, rfl, h1, h2⟩ := path_andThen_ok hp
    cases ok with
    | true =>
      simp only [↓reduceIte] at h2
      obtain ⟨e1, e2⟩ := path_ret h2
      subst e1
      cases e2
      obtain ⟨ob, hob, hg, e3, e4⟩ := path_write_rev c f.append_left h1
      exact ⟨ob, by simp [hob], hg, wr, by rw [e4, e3]⟩
    | false =>
      simp only [Bool.false_eq_true, ↓reduceIte] at h2
      obtain ⟨_, _, ⟨_, _⟩, _, _, h4⟩ := path_andThen_ok h2
      obtain ⟨_, e2⟩ := path_ret h4
      cases e2; cases hs
  rcases h with ⟨v, l, rfl⟩ | rfl
  · rw [txn_update_eq] at hp
    unfold Limited.update at hp
    rw [if_neg hr] at hp
    exact fin (mk := RespOp.put) (cas_update hk v l r) hp
  · rw [txn_delete_eq] at hp
    exact fin (mk := fun h => .deleteRange h) (cas_delete hk r) hp

/-- Of two update or delete transactions on one key with the same expected revision, interleaved with each
other and with anything else, at most one reports success. -/
theorem C20_at_most_one_winner {s s' : Sys} {v1 v1' : Bool} {req req' : TxnReq} {key : Bytes} {r : Int}
    {t : List (Bool × Obs)} {resp resp' : TxnResp} (hs : Reachable s) (hk : key ≠ compactRevKey) (hr : r ≠ 0)
    (h : ExpectsRev req key r) (h' : ExpectsRev req' key r)
    (hrun : Run2 s (Limited.txn v1 req) (Limited.txn v1' req') t (.ok resp) (.ok resp') s') :
    ¬ (resp.succeeded = true ∧ resp'.succeeded = true) := by
  rintro ⟨hok, hok'⟩
  have hw : ∀ {req}, ExpectsRev req key r → req.writtenKey ≠ some compactRevKey := by
    intro req h; rw [h.writtenKey]; simpa using hk
  obtain ⟨hp, hq, f, _⟩ := run2_facts hrun hs.sysInv (safe_txn hs.inv v1 req (hw h))
    (safe_txn hs.inv v1' req' (hw h'))
  -- the two calls separately
  have sub : ∀ who, (side who t).Sublist (t.map (·.2)) := fun who => List.filter_sublist.map _
  have fs : ∀ who, Facts s.world (side who t) s'.world := fun who =>
    ⟨fun ob hob => f.pre ob ((sub who).subset hob), fun ob hob => f.step ob ((sub who).subset hob),
      fun ob hob => f.post ob ((sub who).subset hob), f.chain.sublist (sub who), f.total⟩
  obtain ⟨x, hx, gx, wx, ex⟩ := cas_success h hr hk (fs true) hp hok
  obtain ⟨y, hy, gy, wy, ey⟩ := cas_success h' hr hk (fs false) hq hok'
  -- their two commits are ordered
  have hx' : (true, x) ∈ t := by simpa [side] using hx
  have hy' : (false, y) ∈ t := by simpa [side] using hy
  have chain := List.pairwise_map.1 f.chain
  have ord : ∀ l : List (Bool × Obs), (true, x) ∈ l → (false, y) ∈ l →
      l.Pairwise (fun a b => Ext a.2.post b.2.pre) → Ext x.post y.pre ∨ Ext y.post x.pre := by
    intro l
    induction l with
    | nil => intro hx; cases hx
    | cons z l ih =>
      intro hx hy hl
      rw [List.pairwise_cons] at hl
      rcases List.mem_cons.1 hx with e | hx
      · rcases List.mem_cons.1 hy with e' | hy
        · rw [← e] at e'; cases e'
        · left; have := hl.1 _ hy; rw [← e] at this; exact this
      · rcases List.mem_cons.1 hy with e' | hy
        · right; have := hl.1 _ hx; rw [← e'] at this; exact this
        · exact ih hx hy hl.2
  rcases ord t hx' hy' chain with o | o
  · exact once_atRev key r wx _ _ _ ((fs true).inv hx) gx ex o gy
  · exact once_atRev key r wy _ _ _ ((fs false).inv hy) gy ey o gx

/-- Witness: two updates and one winner. -/
example : ∃ t resp resp' s', Run2 Demo.sys (Limited.txn true (updateTxn Demo.ka 5 [9] 0))
      (Limited.txn true (updateTxn Demo.ka 5 [8] 0)) t (.ok resp) (.ok resp') s' ∧
    resp.succeeded = true ∧ resp'.succeeded = false :=
  ⟨_, _, _, _, .left .ok (.right .ok (.right .ok (.right .ok (.done _ _ _)))), rfl, rfl⟩

/-! ## C21 A failed compare-and-swap answers with a real, different version -/

/-- The answer of a failed update or delete is one range response for the key with at most one key-value; it
is the version the key had at a revision `q` that was current during the call; and if the expected revision had
been assigned before the call, it is not the expected one. -/
theorem C21_failed_answer_is_real {s s' : Sys} {v1 : Bool} {req : TxnReq} {key : Bytes} {r : Int}
    {t : List Obs} {resp : TxnResp} (hs : Reachable s) (hk : key ≠ compactRevKey) (hr : r ≠ 0)
    (h : ExpectsRev req key r) (hrun : Run s (Limited.txn v1 req) t (.ok resp) s')
    (hf : resp.succeeded = false) :
    ∃ q kvs, resp.responses = [.range { header := q, kvs := kvs }] ∧ kvs.length ≤ 1 ∧
      s.world.hist.top ≤ q ∧ q ≤ s'.world.hist.top ∧
      (∀ kv ∈ kvs, kv.key = key ∧ s'.world.hist.at q key = some kv ∧
        (r ≤ s.world.hist.top → kv.modRev ≠ r)) ∧
      (NoTrunc t → s'.world.db.compactRev ≤ q → kvs = [] → s'.world.hist.at q key = none) := by
  obtain ⟨hp, f, i'⟩ := txn_facts hs (by rw [h.writtenKey]; simpa using hk) hrun
  obtain ⟨wr, c⟩ := h.outcome hr hk f hp
  obtain ⟨_, _, _, t₁, t₂, hdr, kvs, rfl, hl, ⟨ob, hob, hne⟩, hresp⟩ := c.failure resp rfl hf
  have f2 := f.append_right
  obtain ⟨h1, h2, _, _⟩ := list_header f2 hl
  obtain ⟨hpw, hsound⟩ := list_sound f2 hl
  have heff : effRev 0 hdr = hdr := by simp [effRev]
  rw [heff] at hsound
  have hwant : ∀ kv ∈ kvs, kv.key = key := by
    intro kv hkv
    simpa [Wanted] using (hsound kv hkv).1
  have hlen : kvs.length ≤ 1 := by
    match kvs, hpw, hwant with
    | [], _, _ => simp
    | [_], _, _ => simp
    | a :: b :: l, hpw, hwant =>
      have := (List.pairwise_cons.1 hpw).1 b (by simp)
      rw [hwant a (by simp), hwant b (by simp), blt_irrefl] at this
      cases this
  refine ⟨hdr, kvs, hresp, hlen, h1, h2, ?_, ?_⟩
  · intro kv hkv
    have hkey := hwant kv hkv
    obtain ⟨_, hat⟩ := hsound kv hkv
    rw [hkey] at hat
    refine ⟨hkey, hat, ?_⟩
    intro hle hmod
    -- the failing statement would have seen the same version
    obtain ⟨ob₁, hob₁, _, _, _, e1, _⟩ := path_list f2 hl
    have hb := f.between hob hob₁
    have htop : ob.pre.hist.top ≤ hdr := by rw [e1]; exact hb.top
    have hpre := (f.pre ob (by simp [hob])).top
    have hx := (f.step ob (by simp [hob])).trans (f.post ob (by simp [hob]))
    have hlast := (at_some_inv i'.inv.wf hat).2.2.2.2
    have hsame : s'.world.hist.at hdr key = s'.world.hist.at ob.pre.hist.top key := by
      apply at_eq_of_no_between htop
      intro d hd hdk hdr'
      have := hlast d hd hdk hdr'
      omega
    rw [hat, hx.at (Int.le_refl _), at_ge_top (f.inv (ob := ob) (by simp [hob])).wf (Int.le_refl _)] at hsame
    exact hne kv hsame.symm hmod
  · intro hnt hcr hnil
    obtain ⟨full, hlist, hkvs⟩ := list_exact f2 hl (fun ob hob => hnt ob (by simp [hob]))
      (by rw [heff]; exact hcr)
    rw [heff] at hlist
    cases hat : s'.world.hist.at hdr key with
    | none => rfl
    | some kv =>
      have hkey := at_key i'.inv.wf hat
      have hin : kv ∈ full := by
        rw [hlist.2 kv, hkey]
        refine ⟨?_, hat⟩
        exact inRange_single.2 rfl
      rw [hnil] at hkvs
      cases full with
      | nil => cases hin
      | cons a l => simp [takeIf] at hkvs

/-- Witness: an update of `/a` expecting revision 3 fails (it was updated at 5) and is shown version 5. -/
example : ∃ t s', Run Demo.sys (Limited.txn true (updateTxn Demo.ka 3 [9] 0)) t
    (.ok { header := 0, succeeded := false,
           responses := [.range { header := 7, kvs := [⟨Demo.ka, [3], 0, 3, 5⟩] }] }) s' :=
  ⟨_, _, runSched_run (is := [.me .ok, .me .ok, .me .ok]) rfl⟩

/-! ## C24 Create revision identifies the incarnation -/

/-- Two key-values of the same key returned by two reads (the second started any time after the first
returned, at whatever revisions), `kv` the older version or equal: their create revisions agree exactly when
no deletion of the key was committed between the two versions. -/
theorem C24_create_revision {s s₁ s₂ s' : Sys} {v1 v1' : Bool} {req req' : RangeReq} {t t' : List Obs}
    {resp resp' : RangeResp} (hs : Reachable s)
    (hr : Run s (Bridge.range v1 req) t (.ok resp) s₁) (hmid : Steps s₁ s₂)
    (hr' : Run s₂ (Bridge.range v1' req') t' (.ok resp') s')
    {kv kv' : KV} (hkv : (kv ∈ resp.kvs ∧ kv' ∈ resp'.kvs) ∨ (kv' ∈ resp.kvs ∧ kv ∈ resp'.kvs))
    (hkey : kv.key = kv'.key) (hle : kv.modRev ≤ kv'.modRev) :
    (kv.createRev = kv'.createRev ↔
      ¬ ∃ c ∈ s'.world.hist, c.key = kv.key ∧ c.write = none ∧ kv.modRev < c.rev ∧ c.rev < kv'.modRev) ∧
    ∃ c ∈ s'.world.hist, c.key = kv.key ∧ c.rev = kv.createRev ∧ c.write ≠ none ∧
      s'.world.hist.at (kv.createRev - 1) kv.key = none := by
  obtain ⟨hp, f, i₁⟩ := range_facts hs hr
  obtain ⟨i₂, hx⟩ := i₁.steps hmid
  obtain ⟨hp', f', i'⟩ := run_facts hr' i₂ (safe_range i₂.inv v1' req')
  have hx' : Ext s₁.world s'.world := hx.trans f'.total
  have h1 : ∀ x ∈ resp.kvs, ∃ q, s'.world.hist.at q x.key = some x := by
    intro x hx
    obtain ⟨_, q, _, _, hq, hall⟩ := range_sound f hp
    obtain ⟨_, _, h2, _⟩ := range_spec f hp
    exact ⟨q, by rw [hx'.at (by omega)]; exact (hall x hx).2⟩
  have h2 : ∀ x ∈ resp'.kvs, ∃ q, s'.world.hist.at q x.key = some x := by
    intro x hx
    obtain ⟨_, q, _, _, _, hall⟩ := range_sound f' hp'
    exact ⟨q, (hall x hx).2⟩
  have ha : (∃ q, s'.world.hist.at q kv.key = some kv) ∧ ∃ q, s'.world.hist.at q kv'.key = some kv' := by
    rcases hkv with ⟨a, b⟩ | ⟨a, b⟩
    · exact ⟨h1 _ a, h2 _ b⟩
    · exact ⟨h2 _ b, h1 _ a⟩
  obtain ⟨⟨q, hq⟩, ⟨q', hq'⟩⟩ := ha
  rw [← hkey] at hq'
  have wf := i'.inv.wf
  have main := incarnation wf hq hq' hle
  obtain ⟨c, hc, hck, hcr, hcw, _, hab, _⟩ := createRev_commit wf hq
  exact ⟨main, c, hc, hck, hcr, hcw, hab⟩

/-- Witness: `/c` is re-created after its deletion; the create revision changes from 6 to 8. -/
example : ∃ t s', Run ⟨runCalls [(.txn true (createTxn Demo.kc [7] 0), oks 1)] Demo.world, []⟩
      (Bridge.range true { key := Demo.kc, rangeEnd := [] }) t
      (.ok { header := 8, kvs := [⟨Demo.kc, [7], 0, 8, 8⟩] }) s' :=
  ⟨_, _, runSched_run (is := [.me .ok, .me .ok]) rfl⟩

/-! ## C26 Every transaction request is classified unambiguously or refused -/

/-- Specification: the mod revision that is compared; a request that sets none compares with 0. -/
def Compares (c : Compare) (rev : Int) : Prop :=
  c.union = .modRevision rev ∨ (rev = 0 ∧ ∀ n, c.union ≠ .modRevision n)

theorem compares_iff {c : Compare} {rev : Int} : Compares c rev ↔ c.getModRevision = rev := by
  unfold Compares Compare.getModRevision
  cases c.union <;> simp [eq_comm]

/-- Shape "create": one compare `mod revision = 0`, then put, no else branch. -/
def CreateShape (t : TxnReq) : Prop :=
  ∃ c p, t.compare = [c] ∧ t.success = [.put p] ∧ t.failure = [] ∧
    c.target = .mod ∧ c.result = .equal ∧ Compares c 0
/-- Shape "delete": one compare `mod revision = r`, then delete, else range. -/
def DeleteShape (t : TxnReq) : Prop :=
  ∃ c d r, t.compare = [c] ∧ t.success = [.deleteRange d] ∧ t.failure = [.range r] ∧
    c.target = .mod ∧ c.result = .equal
/-- Shape "update": one compare `mod revision = r`, then put, else range. -/
def UpdateShape (t : TxnReq) : Prop :=
  ∃ c p r, t.compare = [c] ∧ t.success = [.put p] ∧ t.failure = [.range r] ∧
    c.target = .mod ∧ c.result = .equal
/-- Shape "compact": one compare on the version of `compact_rev_key`, then put, else range. -/
def CompactShape (t : TxnReq) : Prop :=
  ∃ c p r, t.compare = [c] ∧ t.success = [.put p] ∧ t.failure = [.range r] ∧
    c.target = .version ∧ c.result = .equal ∧ c.key = compactRevKey

theorem isCreate_iff {t : TxnReq} : (isCreate t).isSome = true ↔ CreateShape t := by
  obtain ⟨cmp, suc, fai⟩ := t
  constructor
  · intro h
    unfold isCreate at h
    split at h
    · rename_i c s e1 e2 e3
      simp only at e1 e2 e3
      split at h
      · rename_i hc
        cases s <;> simp [ReqOp.getPut] at h
        exact ⟨c, _, e1, e3, e2, hc.1, hc.2.1, compares_iff.2 hc.2.2⟩
      · cases h
    · cases h
  · rintro ⟨c, p, rfl, rfl, rfl, h1, h2, h3⟩
    rw [compares_iff] at h3
    simp [isCreate, h1, h2, h3, ReqOp.getPut]

theorem isDelete_iff {t : TxnReq} : (isDelete t).isSome = true ↔ DeleteShape t := by
  obtain ⟨cmp, suc, fai⟩ := t
  constructor
  · intro h
    unfold isDelete at h
    split at h
    · rename_i c f s e1 e2 e3
      simp only at e1 e2 e3
      split at h
      · rename_i hc
        cases s <;> simp [ReqOp.getDeleteRange] at h
        cases f <;> simp [ReqOp.getRange] at hc
        exact ⟨c, _, _, e1, e3, e2, hc.1, hc.2⟩
      · cases h
    · cases h
  · rintro ⟨c, p, r, rfl, rfl, rfl, h1, h2⟩
    simp [isDelete, h1, h2, ReqOp.getDeleteRange, ReqOp.getRange]

theorem isUpdate_iff {t : TxnReq} : (isUpdate t).isSome = true ↔ UpdateShape t := by
  obtain ⟨cmp, suc, fai⟩ := t
  constructor
  · intro h
    unfold isUpdate at h
    split at h
    · rename_i c f s e1 e2 e3
      simp only at e1 e2 e3
      split at h
      · rename_i hc
        cases s <;> simp [ReqOp.getPut] at h
        cases f <;> simp [ReqOp.getRange] at hc
        exact ⟨c, _, _, e1, e3, e2, hc.1, hc.2⟩
      · cases h
    · cases h
  · rintro ⟨c, p, r, rfl, rfl, rfl, h1, h2⟩
    simp [isUpdate, h1, h2, ReqOp.getPut, ReqOp.getRange]

theorem isCompact_iff {t : TxnReq} : isCompact t = true ↔ CompactShape t := by
  obtain ⟨cmp, suc, fai⟩ := t
  constructor
  · intro h
    unfold isCompact at h
    split at h
    · rename_i c f s e1 e2 e3
      simp only at e1 e2 e3
      simp only [Bool.and_eq_true, decide_eq_true_eq] at h
      obtain ⟨⟨⟨⟨h1, h2⟩, h3⟩, h4⟩, h5⟩ := h
      cases s <;> simp [ReqOp.getPut] at h3
      cases f <;> simp [ReqOp.getRange] at h4
      exact ⟨c, _, _, e1, e3, e2, h1, h2, h5⟩
    · cases h
  · rintro ⟨c, p, r, rfl, rfl, rfl, h1, h2, h3⟩
    simp [isCompact, h1, h2, h3, ReqOp.getPut, ReqOp.getRange]

/-- No request has two shapes. -/
theorem C26_shapes_exclusive (t : TxnReq) :
    ¬ (CreateShape t ∧ DeleteShape t) ∧ ¬ (CreateShape t ∧ UpdateShape t) ∧ ¬ (CreateShape t ∧ CompactShape t) ∧
    ¬ (DeleteShape t ∧ UpdateShape t) ∧ ¬ (DeleteShape t ∧ CompactShape t) ∧
    ¬ (UpdateShape t ∧ CompactShape t) := by
  refine ⟨?_, ?_, ?_, ?_, ?_, ?_⟩
  · rintro ⟨⟨_, _, _, _, h, _⟩, ⟨_, _, _, _, _, h', _⟩⟩; rw [h] at h'; cases h'
  · rintro ⟨⟨_, _, _, _, h, _⟩, ⟨_, _, _, _, _, h', _⟩⟩; rw [h] at h'; cases h'
  · rintro ⟨⟨_, _, _, _, h, _⟩, ⟨_, _, _, _, _, h', _⟩⟩; rw [h] at h'; cases h'
  · rintro ⟨⟨_, _, _, _, h, _⟩, ⟨_, _, _, _, h', _⟩⟩; rw [h] at h'; cases h'
  · rintro ⟨⟨_, _, _, _, h, _⟩, ⟨_, _, _, _, h', _⟩⟩; rw [h] at h'; cases h'
  · rintro ⟨⟨_, _, _, h1, _, _, h, _⟩, ⟨_, _, _, h1', _, _, h', _⟩⟩
    rw [h1] at h1'; cases h1'; rw [h] at h'; cases h'

/-- A request without any of the four shapes is refused without touching the database. -/
theorem C26_others_refused {s s' : Sys} {v1 : Bool} {req : TxnReq} {t : List Obs}
    {a : Except ApiErr TxnResp} (h1 : ¬ CreateShape req) (h2 : ¬ DeleteShape req) (h3 : ¬ UpdateShape req)
    (h4 : ¬ CompactShape req) (hr : Run s (Limited.txn v1 req) t a s') :
    t = [] ∧ a = .error .unsupported := by
  have e : Limited.txn v1 req = .ret (.error .unsupported) := by
    unfold Limited.txn
    have c1 : isCreate req = none := by
      cases h : isCreate req with
      | none => rfl
      | some x => exact absurd (isCreate_iff.1 (by rw [h]; rfl)) h1
    have c2 : isDelete req = none := by
      cases h : isDelete req with
      | none => rfl
      | some x => exact absurd (isDelete_iff.1 (by rw [h]; rfl)) h2
    have c3 : isUpdate req = none := by
      cases h : isUpdate req with
      | none => rfl
      | some x => exact absurd (isUpdate_iff.1 (by rw [h]; rfl)) h3
    have c4 : isCompact req = false := by
      cases h : isCompact req with
      | false => rfl
      | true => exact absurd (isCompact_iff.1 h) h4
    rw [c1, c2, c3, c4]; rfl
  rw [e] at hr
  generalize hp : (Prog.ret (.error .unsupported) : Prog (Except ApiErr TxnResp)) = p at hr
  induction hr with
  | ret s a => cases hp; exact ⟨rfl, rfl⟩
  | env _ _ ih => exact ih hp
  | step => cases hp

/-- Plain puts and range deletions are always refused without touching the database. -/
theorem C26_plain_writes_refused (p : PutReq) (d : DeleteReq) :
    Bridge.put p = .ret (.error .unsupported) ∧ Bridge.deleteRange d = .ret (.error .unsupported) := ⟨rfl, rfl⟩

/-- Witness: two compares match no shape; the three Kubernetes transactions match their own. -/
example : ¬ CreateShape { compare := [], success := [.put { key := Demo.ka, value := [1] }], failure := [] } := by
  rintro ⟨c, p, h, _⟩; cases h
example : CreateShape (createTxn Demo.ka [1] 0) ∧ UpdateShape (updateTxn Demo.ka 3 [1] 0) ∧
    DeleteShape (deleteTxn Demo.ka 3) :=
  ⟨⟨_, _, rfl, rfl, rfl, rfl, rfl, .inl rfl⟩, ⟨_, _, _, rfl, rfl, rfl, rfl, rfl⟩, ⟨_, _, _, rfl, rfl, rfl, rfl, rfl⟩⟩

/-! ## C60 Client compaction requests change nothing -/

theorem run_ret {α : Type} {s s' : Sys} {a b : α} {t : List Obs} (hr : Run s (.ret a) t b s') :
    t = [] ∧ b = a := by
  generalize hp : (Prog.ret a : Prog α) = p at hr
  induction hr with
  | ret s a => cases hp; exact ⟨rfl, rfl⟩
  | env _ _ ih => exact ih hp
  | step => cases hp

/-- The compaction transaction of the API server executes no statement at all and reports failure. -/
theorem C60_compact_txn_changes_nothing {s s' : Sys} {v1 : Bool} {req : TxnReq} {t : List Obs}
    {a : Except ApiErr TxnResp} (h : CompactShape req) (hr : Run s (Limited.txn v1 req) t a s') :
    t = [] ∧ ∃ resp, a = .ok resp ∧ resp.succeeded = false := by
  obtain ⟨_, e2, e3, _, e5, e6⟩ := C26_shapes_exclusive req
  have e : Limited.txn v1 req = .ret (.ok Limited.compact) := by
    unfold Limited.txn
    have c1 : isCreate req = none := by
      cases hc : isCreate req with
      | none => rfl
      | some x => exact absurd ⟨isCreate_iff.1 (by rw [hc]; rfl), h⟩ e3
    have c2 : isDelete req = none := by
      cases hc : isDelete req with
      | none => rfl
      | some x => exact absurd ⟨isDelete_iff.1 (by rw [hc]; rfl), h⟩ e5
    have c3 : isUpdate req = none := by
      cases hc : isUpdate req with
      | none => rfl
      | some x => exact absurd ⟨isUpdate_iff.1 (by rw [hc]; rfl), h⟩ e6
    rw [c1, c2, c3, isCompact_iff.2 h]; rfl
  rw [e] at hr
  obtain ⟨h1, h2⟩ := run_ret hr
  exact ⟨h1, _, h2, rfl⟩

/-- The Compact call executes no statement and echoes the requested revision. -/
theorem C60_compact_call_changes_nothing {s s' : Sys} {rev : Int} {t : List Obs} {a : Except ApiErr Int}
    (hr : Run s (Bridge.compact rev) t a s') : t = [] ∧ a = .ok rev := run_ret hr

/-- Witness: the transaction issued by the API server's compactor. -/
example : CompactShape
    { compare := [{ result := .equal, target := .version, key := compactRevKey, union := .version 0 }]
      success := [.put { key := compactRevKey, value := [49] }]
      failure := [.range { key := compactRevKey }] } :=
  ⟨_, _, _, rfl, rfl, rfl, rfl, rfl, rfl⟩

/-! ## C27 Kubernetes-shaped transactions behave as in etcd -/

/-- The three transactions of the API server on key `key`. -/
inductive KubeTxn (key : Bytes) : TxnReq → Prop where
  | create (value : Bytes) (lease : Int) : KubeTxn key (createTxn key value lease)
  | update (r : Int) (value : Bytes) (lease : Int) : KubeTxn key (updateTxn key r value lease)
  | delete (r : Int) : KubeTxn key (deleteTxn key r)

theorem KubeTxn.writtenKey {key : Bytes} {req : TxnReq} (h : KubeTxn key req) : req.writtenKey = some key := by
  cases h <;> rfl

/-- The full property: at some instant of the call the store moves exactly as etcd would move it there, and
the answer is the one etcd would give there. -/
def EtcdLike (t : List Obs) (req : TxnReq) (resp : TxnResp) : Prop :=
  ∃ ob ∈ t, Etcd.txn ob.pre.hist req = (ob.post.hist, resp)

theorem etcd_absent {w : World} {key : Bytes} (i : Inv w) :
    Etcd.modRev w.hist key = 0 ↔ Absent key w := by
  unfold Etcd.modRev Absent
  cases h : w.hist.now key with
  | none => simp
  | some kv =>
    rw [← at_ge_top i.wf (Int.le_refl _)] at h
    have := (at_some_inv i.wf h).2.2.1
    simp; omega

theorem etcd_atRev {w : World} {key : Bytes} {r : Int} (hr : r ≠ 0) :
    Etcd.modRev w.hist key = r ↔ AtRev key r w := by
  unfold Etcd.modRev AtRev
  cases h : w.hist.now key with
  | none => simp; omega
  | some kv => simp

/-- How a conditional write answers. -/
theorem cas_answer {st : DB → DB × ExecResult} {G : World → Prop} {key : Bytes} {wr : Option (Bytes × Int)}
    {mk : Int → RespOp} {p : Int → Prog (Except ApiErr TxnResp)} {w w' : World} {t : List Obs} {resp : TxnResp}
    (c : CasStmt st G key wr) (f : Facts w t w')
    (hp : ∀ rev t, Path (p rev) t (.ok resp) → resp.succeeded = false)
    (hq : ∀ rev a t, Path (p rev) t a → ∀ ob ∈ t, ob.isQuery)
    (h : Path (((execute st).andThen fun r => .ret (.ok (writeResult r))).andThen fun (rev', succeeded) =>
        if succeeded then .ret (.ok { header := rev', succeeded := true, responses := [mk rev'] })
        else p rev') t (.ok resp)) :
    (resp.succeeded = true → ∃ ob ∈ t, G ob.pre ∧
      ob.post.hist = ob.pre.hist ++ [⟨ob.pre.hist.top + 1, key, wr⟩] ∧
      resp = { header := ob.pre.hist.top + 1, succeeded := true, responses := [mk (ob.pre.hist.top + 1)] }) ∧
    (resp.succeeded = false → (∃ ob ∈ t, ¬ G ob.pre) ∧ (NoLost t → ChangesNothing t)) := by
  obtain ⟨t₁, t₂, ⟨rev', ok⟩, rfl, h1, h2⟩ := path_andThen_ok h
  cases ok with
  | true =>
    simp only [↓reduceIte] at h2
    obtain ⟨e1, e2⟩ := path_ret h2
    subst e1
    cases e2
    obtain ⟨ob, hob, hg, e3, e4⟩ := path_write_rev c f.append_left h1
    subst e3
    exact ⟨fun _ => ⟨ob, by simp [hob], hg, e4, rfl⟩, fun h => by cases h⟩
  | false =>
    simp only [Bool.false_eq_true, ↓reduceIte] at h2
    have hs := hp _ _ h2
    obtain ⟨_, a2, _⟩ := path_write c f.append_left h1
    obtain ⟨_, ⟨ob, hob, hn⟩, hch⟩ := a2 rev' rfl
    refine ⟨(fun h => by rw [hs] at h; cases h), fun _ => ⟨⟨ob, by simp [hob], hn⟩, ?_⟩⟩
    intro hnl
    refine (hch fun ob hob => hnl ob (by simp [hob])).append ?_
    intro ob hob
    exact isQuery_nothing (f.inv (by simp [hob])) (hq _ _ _ h2 ob hob)

theorem list_queries {v1 : Bool} {key re : Bytes} {limit r : Int} {a : Except ApiErr (Int × List KV)} {t : List Obs}
    (h : Path (Backend.list v1 key re limit r) t a) : ∀ ob ∈ t, ob.isQuery := by
  intro ob hob
  have := path_allStmts h (all_list (E := fun e => e = id) rfl v1 key re limit r) ob hob
  obtain ⟨e, he, hpost⟩ := this
  subst he; exact hpost

theorem elseRange_answer {v1 : Bool} {key : Bytes} {rev : Int} {a : Except ApiErr TxnResp} {t : List Obs}
    (h : Path (Limited.elseRange v1 key rev) t a) :
    (∀ resp, a = .ok resp → resp.succeeded = false) ∧ ∀ ob ∈ t, ob.isQuery := by
  rcases path_andThen h with ⟨t₁, t₂, x, rfl, h1, h2⟩ | ⟨e, rfl, h1⟩
  · obtain ⟨e1, e2⟩ := path_ret h2
    subst e1 e2
    refine ⟨?_, by simpa using list_queries h1⟩
    intro resp hr; cases hr; rfl
  · exact ⟨fun resp hr => (by cases hr), list_queries h1⟩

/-- Partial: a transaction that reports success did, at one instant of the call, exactly what etcd would have
done to the store there, and answers with etcd's revisions. (The number of deleted keys is missing from the
answer to a delete, see the counterexamples below.) -/
theorem C27_success_partial {s s' : Sys} {v1 : Bool} {req : TxnReq} {key : Bytes} {t : List Obs}
    {resp : TxnResp} (hs : Reachable s) (hk : key ≠ compactRevKey) (hreq : KubeTxn key req)
    (hr : Run s (Limited.txn v1 req) t (.ok resp) s') (hok : resp.succeeded = true) :
    ∃ ob ∈ t, (Etcd.txn ob.pre.hist req).1 = ob.post.hist ∧
      (Etcd.txn ob.pre.hist req).2.succeeded = true ∧ (Etcd.txn ob.pre.hist req).2.header = resp.header ∧
      (Etcd.txn ob.pre.hist req).2.responses.map RespOp.headerOf = resp.responses.map RespOp.headerOf := by
  have hel : ∀ rev t, Path (Limited.elseRange v1 key rev) t (.ok resp) → resp.succeeded = false :=
    fun _ _ h => (elseRange_answer h).1 _ rfl
  have heq : ∀ rev a t, Path (Limited.elseRange v1 key rev) t a → ∀ ob ∈ t, ob.isQuery :=
    fun _ _ _ h => (elseRange_answer h).2
  obtain ⟨hp, f, _⟩ := txn_facts hs (by rw [hreq.writtenKey]; simpa using hk) hr
  cases hreq with
  | create value lease =>
    rw [txn_create_eq] at hp
    obtain ⟨ob, hob, hg, h1, h2⟩ := (cas_answer (mk := RespOp.put)
      (p := fun rev => .ret (.ok { header := rev, succeeded := false }))
      (cas_create key value lease) f
      (fun _ _ h => by obtain ⟨_, e⟩ := path_ret h; cases e; rfl)
      (fun _ _ _ h => by obtain ⟨e, _⟩ := path_ret h; subst e; simp) hp).1 hok
    have := (etcd_absent (f.inv hob)).2 hg
    refine ⟨ob, hob, ?_⟩
    simp [Etcd.txn, createTxn, Etcd.holds, this, Etcd.branch, Etcd.op, h1, h2, top_snoc, RespOp.headerOf]
  | update r value lease =>
    rw [txn_update_eq] at hp
    unfold Limited.update at hp
    by_cases hr0 : r = 0
    · rw [if_pos hr0] at hp
      subst hr0
      obtain ⟨ob, hob, hg, h1, h2⟩ := (cas_answer (mk := RespOp.put) (cas_create key value lease) f hel heq hp).1 hok
      have := (etcd_absent (f.inv hob)).2 hg
      refine ⟨ob, hob, ?_⟩
      simp [Etcd.txn, updateTxn, Etcd.holds, this, Etcd.branch, Etcd.op, h1, h2, top_snoc, RespOp.headerOf]
    · rw [if_neg hr0] at hp
      obtain ⟨ob, hob, hg, h1, h2⟩ := (cas_answer (mk := RespOp.put) (cas_update hk value lease r) f hel heq hp).1 hok
      have := (etcd_atRev hr0).2 hg
      refine ⟨ob, hob, ?_⟩
      simp [Etcd.txn, updateTxn, Etcd.holds, this, Etcd.branch, Etcd.op, h1, h2, top_snoc, RespOp.headerOf]
  | delete r =>
    rw [txn_delete_eq] at hp
    obtain ⟨ob, hob, hg, h1, h2⟩ := (cas_answer (mk := fun h => .deleteRange h) (cas_delete hk r) f hel heq hp).1 hok
    have : Etcd.modRev ob.pre.hist key = r := by
      obtain ⟨kv, e1, e2⟩ := hg
      simp [Etcd.modRev, e1, e2]
    obtain ⟨kv, e1, e2⟩ := hg
    refine ⟨ob, hob, ?_⟩
    simp [Etcd.txn, deleteTxn, Etcd.holds, this, Etcd.branch, Etcd.op, e1, h1, h2, top_snoc, RespOp.headerOf]

/-- Partial: a transaction that reports failure (other than a delete expecting revision 0) ran at an instant at
which etcd would also have reported failure and changed nothing; and unless an acknowledgement was lost, it
changed nothing. What the answer of the else branch shows is C21. -/
theorem C27_failure_partial {s s' : Sys} {v1 : Bool} {req : TxnReq} {key : Bytes} {t : List Obs}
    {resp : TxnResp} (hs : Reachable s) (hk : key ≠ compactRevKey) (hreq : KubeTxn key req)
    (hr : Run s (Limited.txn v1 req) t (.ok resp) s') (hf : resp.succeeded = false)
    (hd : req ≠ deleteTxn key 0) :
    (NoLost t → ChangesNothing t) ∧
    ∃ ob ∈ t, (Etcd.txn ob.pre.hist req).1 = ob.pre.hist ∧
      (Etcd.txn ob.pre.hist req).2.succeeded = false := by
  have hel : ∀ rev t, Path (Limited.elseRange v1 key rev) t (.ok resp) → resp.succeeded = false :=
    fun _ _ h => (elseRange_answer h).1 _ rfl
  have heq : ∀ rev a t, Path (Limited.elseRange v1 key rev) t a → ∀ ob ∈ t, ob.isQuery :=
    fun _ _ _ h => (elseRange_answer h).2
  obtain ⟨hp, f, _⟩ := txn_facts hs (by rw [hreq.writtenKey]; simpa using hk) hr
  cases hreq with
  | create value lease =>
    rw [txn_create_eq] at hp
    obtain ⟨⟨ob, hob, hg⟩, h1⟩ := (cas_answer (mk := RespOp.put)
      (p := fun rev => .ret (.ok { header := rev, succeeded := false }))
      (cas_create key value lease) f
      (fun _ _ h => by obtain ⟨_, e⟩ := path_ret h; cases e; rfl)
      (fun _ _ _ h => by obtain ⟨e, _⟩ := path_ret h; subst e; simp) hp).2 hf
    have hne := fun h => hg ((etcd_absent (f.inv hob)).1 h)
    refine ⟨h1, ob, hob, ?_⟩
    simp [Etcd.txn, createTxn, Etcd.holds, show ¬ _ from hne, Etcd.branch]
  | update r value lease =>
    rw [txn_update_eq] at hp
    unfold Limited.update at hp
    by_cases hr0 : r = 0
    · rw [if_pos hr0] at hp
      subst hr0
      obtain ⟨⟨ob, hob, hg⟩, h1⟩ := (cas_answer (mk := RespOp.put) (cas_create key value lease) f hel heq hp).2 hf
      have hne := fun h => hg ((etcd_absent (f.inv hob)).1 h)
      refine ⟨h1, ob, hob, ?_⟩
      simp [Etcd.txn, updateTxn, Etcd.holds, show ¬ _ from hne, Etcd.branch, Etcd.op]
    · rw [if_neg hr0] at hp
      obtain ⟨⟨ob, hob, hg⟩, h1⟩ := (cas_answer (mk := RespOp.put) (cas_update hk value lease r) f hel heq hp).2 hf
      have hne := fun h => hg ((etcd_atRev hr0).1 h)
      refine ⟨h1, ob, hob, ?_⟩
      simp [Etcd.txn, updateTxn, Etcd.holds, show ¬ _ from hne, Etcd.branch, Etcd.op]
  | delete r =>
    rw [txn_delete_eq] at hp
    have hr0 : r ≠ 0 := fun h => hd (by rw [h])
    obtain ⟨⟨ob, hob, hg⟩, h1⟩ := (cas_answer (mk := fun h => .deleteRange h) (cas_delete hk r) f hel heq hp).2 hf
    have hne := fun h => hg ((etcd_atRev hr0).1 h)
    refine ⟨h1, ob, hob, ?_⟩
    simp [Etcd.txn, deleteTxn, Etcd.holds, show ¬ _ from hne, Etcd.branch, Etcd.op]

/-- The full property fails: a delete expecting revision 0 of a key that does not exist reports failure, while
etcd reports success. No fault and no other client is involved. -/
theorem C27_delete_absent_counterexample : ∃ s s' t resp, Reachable s ∧
    Run s (Limited.txn true (deleteTxn Demo.kc 0)) t (.ok resp) s' ∧ faultless t = true ∧
    resp.succeeded = false ∧ (∀ ob ∈ t, (Etcd.txn ob.pre.hist (deleteTxn Demo.kc 0)).2.succeeded = true) := by
  obtain ⟨s, s', t, a, h1, h2, _, h4⟩ := Scenario.check
    { setup := Demo.setup, sched := [.me .ok, .me .ok, .me .ok], prog := Limited.txn true (deleteTxn Demo.kc 0) }
    (fun t a _ => faultless t && (match a with | .ok r => !r.succeeded | _ => false) &&
      t.all fun ob => (Etcd.txn ob.pre.hist (deleteTxn Demo.kc 0)).2.succeeded) (by decide +kernel) (by decide +kernel)
  simp only [Bool.and_eq_true, List.all_eq_true] at h4
  cases a with
  | error e => simp at h4
  | ok resp => exact ⟨s, s', t, resp, h1, h2, h4.1.1, by simpa using h4.1.2, h4.2⟩

/-- The full property fails: compare and else branch are not atomic. An update of `/c` expecting revision 8
(not yet assigned) fails, another client creates `/c` at revision 8, and the else branch of the failed update
shows the key at exactly the expected revision; etcd never answers so. -/
theorem C27_not_atomic_counterexample : ∃ s s' t resp kv, Reachable s ∧
    Run s (Limited.txn true (updateTxn Demo.kc 8 [9] 0)) t (.ok resp) s' ∧ faultless t = true ∧
    resp.succeeded = false ∧ resp.responses = [.range { header := 8, kvs := [kv] }] ∧ kv.modRev = 8 ∧
    ¬ EtcdLike t (updateTxn Demo.kc 8 [9] 0) resp := by
  obtain ⟨s, s', t, a, h1, h2, _, h4⟩ := Scenario.check
    { setup := Demo.setup, prog := Limited.txn true (updateTxn Demo.kc 8 [9] 0),
      sched := [.me .ok, .env [(.txn true (createTxn Demo.kc [5] 0), oks 1)], .me .ok, .me .ok] }
    (fun t a _ => faultless t &&
      decide (a = .ok { header := 0, succeeded := false,
                        responses := [.range { header := 8, kvs := [⟨Demo.kc, [5], 0, 8, 8⟩] }] }) &&
      t.all fun ob => decide ((Etcd.txn ob.pre.hist (updateTxn Demo.kc 8 [9] 0)).2 ≠
        { header := 0, succeeded := false,
          responses := [.range { header := 8, kvs := [⟨Demo.kc, [5], 0, 8, 8⟩] }] }))
    (by decide +kernel) (by decide +kernel)
  simp only [Bool.and_eq_true, List.all_eq_true, decide_eq_true_eq] at h4
  obtain ⟨⟨h4, h5⟩, h6⟩ := h4
  subst h5
  refine ⟨s, s', t, _, _, h1, h2, h4, rfl, rfl, rfl, ?_⟩
  rintro ⟨ob, hob, he⟩
  exact h6 ob hob (by rw [he])

/-- Witness for the partial theorems: see those of C20 and C21 (a successful and a failing update). -/
example : KubeTxn Demo.ka (updateTxn Demo.ka 5 [9] 0) := .update 5 [9] 0

/-! ## C52 Retries are bounded -/

/-- Attempts of one statement, at most `n`: every attempt that is followed by another one ended in a retryable
error. -/
def Attempts (n : Nat) (t : List Obs) : Prop :=
  t.length ≤ n ∧ ∀ u x v, t = u ++ x :: v → v ≠ [] → x.out = .fail .busy ∨ x.out = .lost .busy

theorem run_path {α : Type} {s s' : Sys} {p : Prog α} {t : List Obs} {a : α} (r : Run s p t a s') : Path p t a := by
  induction r with
  | ret s a => exact .ret a
  | env _ _ ih => exact ih
  | step o _ ih => exact .step _ o ih

theorem Attempts.nil (n : Nat) : Attempts n [] := ⟨by simp, by intro u x v h; simp at h⟩

theorem Attempts.one (n : Nat) (x : Obs) : Attempts (n + 1) [x] :=
  ⟨by simp, by
    intro u y v h hv
    cases u with
    | nil => simp at h; exact absurd h.2 hv
    | cons z u => simp at h⟩

theorem Attempts.cons {n : Nat} {x : Obs} {t : List Obs} (hx : x.out = .fail .busy ∨ x.out = .lost .busy)
    (h : Attempts n t) : Attempts (n + 1) (x :: t) := by
  refine ⟨by have := h.1; simp; omega, ?_⟩
  intro u y v e hv
  cases u with
  | nil => simp at e; rw [← e.1]; exact hx
  | cons z u => simp at e; exact h.2 u y v e.2 hv

theorem attempts_queryLoop {β : Type} {sel : DB → β} {n : Nat} {t : List Obs} {r : Except ApiErr (β × Option Nat)}
    (h : Path (queryLoop sel n) t r) : Attempts n t := by
  induction n generalizing t with
  | zero => obtain ⟨rfl, _⟩ := path_ret h; exact Attempts.nil 0
  | succ n ih =>
    cases h with
    | @step _ _ t' _ w o h' =>
      cases o with
      | ok => obtain ⟨rfl, _⟩ := path_ret h'; exact Attempts.one _ _
      | trunc m => obtain ⟨rfl, _⟩ := path_ret h'; exact Attempts.one _ _
      | fail e =>
        simp only at h'
        split at h'
        · rename_i he; have := retry_busy he; subst this; exact (ih h').cons (Or.inl rfl)
        · obtain ⟨rfl, _⟩ := path_ret h'; exact Attempts.one _ _
      | lost e =>
        simp only at h'
        split at h'
        · rename_i he; have := retry_busy he; subst this; exact (ih h').cons (Or.inr rfl)
        · obtain ⟨rfl, _⟩ := path_ret h'; exact Attempts.one _ _

theorem attempts_executeLoop {st : DB → DB × ExecResult} {n : Nat} {t : List Obs} {r : Except ApiErr ExecResult}
    (h : Path (executeLoop st n) t r) : Attempts n t := by
  induction n generalizing t with
  | zero => obtain ⟨rfl, _⟩ := path_ret h; exact Attempts.nil 0
  | succ n ih =>
    cases h with
    | @step _ _ t' _ w o h' =>
      cases o with
      | ok => obtain ⟨rfl, _⟩ := path_ret h'; exact Attempts.one _ _
      | trunc m => obtain ⟨rfl, _⟩ := path_ret h'; exact Attempts.one _ _
      | fail e =>
        simp only at h'
        split at h'
        · rename_i he; have := retry_busy he; subst this; exact (ih h').cons (Or.inl rfl)
        · obtain ⟨rfl, _⟩ := path_ret h'; exact Attempts.one _ _
      | lost e =>
        simp only at h'
        split at h'
        · rename_i he; have := retry_busy he; subst this; exact (ih h').cons (Or.inr rfl)
        · obtain ⟨rfl, _⟩ := path_ret h'; exact Attempts.one _ _

theorem attempts_compactLoop {start stop : Int} {n : Nat} {t : List Obs} {r : Except ApiErr Unit}
    (h : Path (compactLoop start stop n) t r) : Attempts n t := by
  induction n generalizing t with
  | zero => obtain ⟨rfl, _⟩ := path_ret h; exact Attempts.nil 0
  | succ n ih =>
    cases h with
    | @step _ _ t' _ w o h' =>
      cases o with
      | ok => obtain ⟨rfl, _⟩ := path_ret h'; exact Attempts.one _ _
      | trunc m => obtain ⟨rfl, _⟩ := path_ret h'; exact Attempts.one _ _
      | fail e =>
        simp only at h'
        split at h'
        · rename_i he; have := retry_busy he; subst this; exact (ih h').cons (Or.inl rfl)
        · obtain ⟨rfl, _⟩ := path_ret h'; exact Attempts.one _ _
      | lost e =>
        simp only at h'
        split at h'
        · rename_i he; have := retry_busy he; subst this; exact (ih h').cons (Or.inr rfl)
        · obtain ⟨rfl, _⟩ := path_ret h'; exact Attempts.one _ _

/-- A query is attempted at most 500 times and again only after a retryable error. -/
theorem C52_query {β : Type} {sel : DB → β} {s s' : Sys} {t : List Obs} {a : Except ApiErr (β × Option Nat)}
    (h : Run s (query sel) t a s') : Attempts 500 t := attempts_queryLoop (run_path h)

/-- The same for a write statement. -/
theorem C52_execute {st : DB → DB × ExecResult} {s s' : Sys} {t : List Obs} {a : Except ApiErr ExecResult}
    (h : Run s (execute st) t a s') : Attempts 500 t := attempts_executeLoop (run_path h)

/-- The same for one compaction of the database: one query and the compaction transaction. -/
theorem C52_compact {rev : Int} {s s' : Sys} {t : List Obs} {a : Except ApiErr Unit}
    (h : Run s (Driver.compactSqlite rev) t a s') :
    ∃ t₁ t₂, t = t₁ ++ t₂ ∧ Attempts 500 t₁ ∧ Attempts 500 t₂ := by
  have hq : ∀ {t a}, Path Driver.getCompactRevision t a → Attempts 500 t := by
    intro t a h
    rcases path_andThen h with ⟨t₁, t₂, r, rfl, h1, h2⟩ | ⟨e, _, h1⟩
    · obtain ⟨x, _, h3⟩ := path_map h2
      obtain ⟨rfl, _⟩ := path_oneRow h3
      rw [List.append_nil]
      exact attempts_queryLoop h1
    · exact attempts_queryLoop h1
  rcases path_andThen (run_path h) with ⟨t₁, t₂, ⟨x, y⟩, rfl, h1, h2⟩ | ⟨e, _, h1⟩
  · refine ⟨t₁, t₂, rfl, hq h1, ?_⟩
    simp only at h2
    by_cases hx : x ≥ rev
    · rw [if_pos hx] at h2
      obtain ⟨rfl, _⟩ := path_ret h2; exact Attempts.nil _
    · rw [if_neg hx] at h2
      exact attempts_compactLoop h2
  · exact ⟨t, [], by simp, hq h1, Attempts.nil _⟩

/-! The total number of statements of a call. -/

theorem len_query {β : Type} {sel : DB → β} {t : List Obs} {r : Except ApiErr (β × Option Nat)}
    (h : Path (query sel) t r) : t.length ≤ 500 := (attempts_queryLoop h).1

theorem len_andThen {ε α β : Type} {p : Prog (Except ε α)} {f : α → Prog (Except ε β)} {t : List Obs}
    {b : Except ε β} {m n : Nat} (hp : ∀ t a, Path p t a → t.length ≤ m)
    (hf : ∀ a t b, Path (f a) t b → t.length ≤ n) (h : Path (p.andThen f) t b) : t.length ≤ m + n := by
  rcases path_andThen h with ⟨t₁, t₂, a, rfl, h1, h2⟩ | ⟨e, rfl, h1⟩
  · have := hp _ _ h1; have := hf _ _ _ h2; simp; omega
  · have := hp _ _ h1; omega

theorem len_ret {α : Type} {a b : α} {t : List Obs} (h : Path (.ret a) t b) : t.length ≤ 0 := by
  obtain ⟨rfl, _⟩ := path_ret h; simp

theorem len_getCompactRevision {t : List Obs} {r : Except ApiErr (Int × Int)}
    (h : Path Driver.getCompactRevision t r) : t.length ≤ 500 :=
  len_andThen (n := 0) (fun _ _ h => len_query h) (fun _ _ _ h => by
    obtain ⟨x, _, h3⟩ := path_map h
    obtain ⟨rfl, _⟩ := path_oneRow h3; simp) h

theorem len_list {v1 : Bool} {key re : Bytes} {limit r : Int} {t : List Obs} {a : Except ApiErr (Int × List KV)}
    (h : Path (Backend.list v1 key re limit r) t a) : t.length ≤ 1000 := by
  refine len_andThen (m := 500) (n := 500) (fun _ _ h => len_getCompactRevision h) (fun x t b h => ?_) h
  have go : ∀ rev t b, Path ((Driver.list v1 key re limit rev).andThen fun rows =>
      .ret (.ok (x.2, scanAll scanKeyValue rows))) t b → t.length ≤ 500 := fun rev t b h =>
    len_andThen (n := 0) (fun _ _ h => len_query h) (fun _ _ _ h => len_ret h) h
  simp only at h
  split at h
  · exact go _ _ _ h
  · split at h
    · have := len_ret h; omega
    · exact go _ _ _ h

theorem len_count {v1 : Bool} {key re : Bytes} {r : Int} {t : List Obs} {a : Except ApiErr (Int × Int)}
    (h : Path (Backend.count v1 key re r) t a) : t.length ≤ 1000 := by
  refine len_andThen (m := 500) (n := 500) (fun _ _ h => len_getCompactRevision h) (fun x t b h => ?_) h
  have go : ∀ rev t b, Path ((Driver.count v1 key re rev).andThen fun n => .ret (.ok (x.2, n))) t b →
      t.length ≤ 500 := fun rev t b h =>
    len_andThen (m := 500) (n := 0) (fun _ _ h => len_andThen (n := 0) (fun _ _ h => len_query h) (fun _ _ _ h => by
      obtain ⟨x, _, h3⟩ := path_map h
      obtain ⟨rfl, _⟩ := path_oneRow h3; simp) h) (fun _ _ _ h => len_ret h) h
  simp only at h
  split at h
  · exact go _ _ _ h
  · split at h
    · have := len_ret h; omega
    · exact go _ _ _ h

/-- A range request executes at most 4 · 500 statements (attempts included), whatever happens. -/
theorem C52_range {v1 : Bool} {req : RangeReq} {s s' : Sys} {t : List Obs} {a : Except ApiErr RangeResp}
    (h : Run s (Bridge.range v1 req) t a s') : t.length ≤ 2000 := by
  have h := run_path h
  rcases bridge_range_cases v1 req with ⟨_, e⟩ | ⟨_, e⟩
  case' inr => rw [e] at h; have := len_ret h; omega
  rw [e] at h
  unfold Limited.range at h
  split at h
  · have := len_andThen (n := 0) (fun _ _ h => len_list h) (fun _ _ _ h => len_ret h) h
    omega
  · unfold Limited.list at h
    split at h
    · have := len_andThen (n := 0) (fun _ _ h => len_count h) (fun _ _ _ h => len_ret h) h
      omega
    · refine len_andThen (m := 1000) (n := 1000) (fun _ _ h => len_list h) (fun x t b h => ?_) h
      simp only at h
      generalize (if req.limit > 0 then req.limit + 1 else req.limit) = lim at h
      split at h
      · exact len_andThen (n := 0) (fun _ _ h => len_count h) (fun _ _ _ h => len_ret h) h
      · have := len_ret h; omega

/-- A transaction executes at most 3 · 500 statements (attempts included). -/
theorem C52_txn {v1 : Bool} {req : TxnReq} {s s' : Sys} {t : List Obs} {a : Except ApiErr TxnResp}
    (h : Run s (Limited.txn v1 req) t a s') : t.length ≤ 1500 := by
  have h := run_path h
  have hw : ∀ {st : DB → DB × ExecResult} {t : List Obs} {r : Except ApiErr (Int × Bool)},
      Path ((execute st).andThen fun r => .ret (.ok (writeResult r))) t r → t.length ≤ 500 := fun h =>
    len_andThen (n := 0) (fun _ _ h => (attempts_executeLoop h).1) (fun _ _ _ h => len_ret h) h
  have hel : ∀ {key : Bytes} {rev : Int} {t : List Obs} {a : Except ApiErr TxnResp},
      Path (Limited.elseRange v1 key rev) t a → t.length ≤ 1000 := fun h =>
    len_andThen (n := 0) (fun _ _ h => len_list h) (fun _ _ _ h => len_ret h) h
  unfold Limited.txn at h
  split at h
  · unfold Limited.create at h
    split at h
    · have := len_ret h; omega
    split at h
    · have := len_ret h; omega
    split at h
    · have := len_ret h; omega
    have := len_andThen (m := 500) (n := 0) (fun _ _ h => hw h) (fun x t b h => by
      simp only at h
      split at h
      · exact len_ret h
      · exact len_ret h) h
    omega
  · split at h
    · exact len_andThen (m := 500) (n := 1000) (fun _ _ h => hw h) (fun x t b h => by
        simp only at h
        split at h
        · have := len_ret h; omega
        · exact hel h) h
    · split at h
      · exact len_andThen (m := 500) (n := 1000) (fun _ _ h => by
            split at h
            · exact hw h
            · exact hw h) (fun x t b h => by
          simp only at h
          split at h
          · have := len_ret h; omega
          · exact hel h) h
      · split at h
        · have := len_ret h; omega
        · have := len_ret h; omega

/-- Witness: a create that is retried twice. -/
example : ∃ t s', Run Demo.sys (Limited.txn true (createTxn Demo.kc [7] 0)) t
    (.ok { header := 8, succeeded := true, responses := [.put 8] }) s' ∧ t.length = 3 :=
  ⟨_, _, runSched_run (is := [.me (.fail .busy), .me (.fail .busy), .me .ok]) rfl, rfl⟩

end Verif
