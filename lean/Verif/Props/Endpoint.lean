import Verif.Model.Endpoint
/-!
# C93 The listening address and the socket
-/

namespace Verif

/-! ## The address -/

/-- Specification: `n` and `a` are what is before and after the first `"://"` of `s`. -/
def IsCut (s n a : Bytes) : Prop :=
  s = n ++ [58, 47, 47] ++ a ∧ ∀ n' a', s = n' ++ [58, 47, 47] ++ a' → n.length ≤ n'.length

theorem isPrefixOf_iff {l s : Bytes} : l.isPrefixOf s = true ↔ ∃ t, s = l ++ t := by
  rw [List.isPrefixOf_iff_prefix]
  exact ⟨fun ⟨t, h⟩ => ⟨t, h.symm⟩, fun ⟨t, h⟩ => ⟨t, h.symm⟩⟩

theorem cutScheme_some {s n a : Bytes} : cutScheme s = some (n, a) ↔ IsCut s n a := by
  induction s generalizing n with
  | nil =>
    refine ⟨nofun, fun h => ?_⟩
    have := h.1
    simp at this
  | cons c s ih =>
    unfold cutScheme
    by_cases hp : schemeSep.isPrefixOf (c :: s) = true
    · rw [if_pos hp]
      obtain ⟨t, ht⟩ := isPrefixOf_iff.1 hp
      have ht : c :: s = [58, 47, 47] ++ t := ht
      constructor
      · intro h
        simp only [Option.some.injEq, Prod.mk.injEq] at h
        obtain ⟨rfl, rfl⟩ := h
        refine ⟨?_, by simp⟩
        rw [ht]; simp
      · rintro ⟨h1, h2⟩
        have hn : n = [] := by
          have := h2 [] t (by simpa using ht)
          exact List.length_eq_zero_iff.1 (Nat.le_zero.1 this)
        subst hn
        rw [h1]; simp
    · rw [if_neg hp]
      have hno : ∀ a', c :: s ≠ [] ++ [58, 47, 47] ++ a' := fun a' e => hp (isPrefixOf_iff.2 ⟨a', by simpa [schemeSep] using e⟩)
      constructor
      · intro h
        obtain ⟨⟨n₁, a₁⟩, h1, h2⟩ := Option.map_eq_some_iff.1 h
        simp only [Prod.mk.injEq] at h2
        obtain ⟨rfl, rfl⟩ := h2
        obtain ⟨g1, g2⟩ := ih.1 h1
        refine ⟨by rw [g1]; simp, fun n' a' e => ?_⟩
        cases n' with
        | nil => exact absurd e (hno a')
        | cons d n' =>
          simp only [List.cons_append, List.cons.injEq] at e
          have := g2 n' a' (by simpa using e.2)
          simpa using this
      · rintro ⟨h1, h2⟩
        cases n with
        | nil => exact absurd h1 (hno a)
        | cons d n =>
          have h1' := h1
          simp only [List.cons_append, List.cons.injEq] at h1'
          obtain ⟨rfl, h1'⟩ := h1'
          rw [(ih (n := n)).2 ⟨by simpa using h1', fun n' a' e => ?_⟩]
          · rfl
          · have := h2 (c :: n') a' (by rw [e]; simp)
            simpa using this

theorem cutScheme_none {s : Bytes} : cutScheme s = none ↔ ¬ ∃ n a, s = n ++ [58, 47, 47] ++ a := by
  constructor
  · rintro h ⟨n, a, e⟩
    induction n generalizing s with
    | nil =>
      subst e
      simp [cutScheme, schemeSep] at h
    | cons c n ih =>
      subst e
      simp only [List.cons_append, cutScheme] at h
      split at h
      · cases h
      · rw [Option.map_eq_none_iff] at h
        exact ih h rfl
  · intro h
    cases hc : cutScheme s with
    | none => rfl
    | some x =>
      obtain ⟨n, a⟩ := x
      exact absurd ⟨n, a, (cutScheme_some.1 hc).1⟩ h

/-- The address is split at its first `"://"`; without one the network is empty. -/
theorem C93_address (s : Bytes) :
    (∀ n a, IsCut s n a → networkAndAddress s = (n, a)) ∧
    ((¬ ∃ n a, s = n ++ [58, 47, 47] ++ a) → networkAndAddress s = ([], s)) := by
  refine ⟨fun n a h => ?_, fun h => ?_⟩
  · unfold networkAndAddress
    rw [cutScheme_some.2 h]
  · unfold networkAndAddress
    rw [cutScheme_none.2 h]

/-- `network ++ "://" ++ address` is understood as meant, whatever the address, if the network contains no colon. -/
theorem C93_address_roundtrip (n a : Bytes) (h : 58 ∉ n) : networkAndAddress (n ++ [58, 47, 47] ++ a) = (n, a) := by
  refine (C93_address _).1 n a ⟨rfl, fun n' a' e => ?_⟩
  refine Nat.le_of_not_lt fun hlt => h ?_
  have e' : n ++ ([58, 47, 47] ++ a) = n' ++ ([58, 47, 47] ++ a') := by simpa using e
  rcases List.append_eq_append_iff.1 e' with ⟨t, rfl, _⟩ | ⟨t, rfl, e2⟩
  · simp at hlt; omega
  · cases t with
    | nil => simp at hlt
    | cons c t =>
      rw [List.cons_append] at e2
      have : c = 58 := by
        have := congrArg List.head? e2
        simpa using this.symm
      simp [this]

/-- A path with a scheme in it, and the default. -/
example : networkAndAddress ([117, 110, 105, 120] ++ [58, 47, 47] ++ [97, 58, 47, 47, 98]) = (unixNet, [97, 58, 47, 47, 98]) :=
  C93_address_roundtrip _ _ (by decide)
example : networkAndAddress (listenAddress []) = (unixNet, [107, 105, 110, 101, 46, 115, 111, 99, 107]) := by decide +kernel

/-! ## The socket -/

theorem newSocketMode_bit (u : Nat) (w : Who) : (newSocketMode u).testBit w.writeBit = !u.testBit w.writeBit := by
  unfold newSocketMode
  rw [Nat.testBit_xor, Nat.testBit_and]
  have : Nat.testBit 0o777 w.writeBit = true := by cases w <;> decide
  rw [this]
  cases u.testBit w.writeBit <;> rfl

structure ListenInv (u : Nat) (s : ListenSys) : Prop where
  umask : s.umask = u
  mode : ∀ m, s.entry = some (.socket m) → m = newSocketMode u ∨ m = 0o600
  done : s.unix = true → s.pc = .done true → ∀ m, s.entry = some (.socket m) → m = 0o600
  clients : ∀ w ∈ s.clients, w = .owner ∨ u.testBit w.writeBit = false
  served : s.served <+: s.clients
  pc : s.listening = true → s.pc ≠ .remove ∧ s.pc ≠ .bind ∧ s.pc ≠ .listen

theorem after_unix {s : ListenSys} {ok : Bool} (hu : s.unix = true) : s.after ok = .chmod ok := by
  unfold ListenSys.after; rw [if_pos hu]

theorem ListenInv.step {u : Nat} {a b : ListenSys} (h : ListenInv u a) (hs : ListenStep a b) : ListenInv u b := by
  cases hs with
  | remove e hp he hr =>
    exact ⟨h.umask, nofun, nofun, h.clients, h.served, fun hl => absurd hp (h.pc hl).1⟩
  | notRemoved hp => exact ⟨h.umask, h.mode, nofun, h.clients, h.served, fun hl => absurd hp (h.pc hl).1⟩
  | bind hp he =>
    refine ⟨h.umask, ?_, nofun, h.clients, h.served, fun hl => absurd hp (h.pc hl).2.1⟩
    intro m hm
    simp only [Option.some.injEq, SockEntry.socket.injEq] at hm
    rw [← hm, h.umask]; exact Or.inl rfl
  | notBound hp =>
    refine ⟨h.umask, h.mode, ?_, h.clients, h.served, fun hl => absurd hp (h.pc hl).2.1⟩
    intro hu hd
    have hd : a.after false = _ := hd
    rw [after_unix (s := a) hu] at hd
    cases hd
  | listen hp =>
    refine ⟨h.umask, h.mode, ?_, h.clients, h.served, fun _ => ?_⟩
    · intro hu hd
      have hd : a.after true = _ := hd
      rw [after_unix (s := a) hu] at hd
      cases hd
    · show a.after true ≠ _ ∧ a.after true ≠ _ ∧ a.after true ≠ _
      unfold ListenSys.after
      split <;> simp
  | notListening hp =>
    refine ⟨h.umask, h.mode, ?_, h.clients, h.served, fun hl => absurd hp (h.pc hl).2.2⟩
    intro hu hd
    have hd : a.after false = _ := hd
    rw [after_unix (s := a) hu] at hd
    cases hd
  | chmod ok m hp he =>
    refine ⟨h.umask, ?_, ?_, h.clients, h.served, fun _ => by simp⟩
    · intro m hm
      simp only [Option.some.injEq, SockEntry.socket.injEq] at hm
      exact Or.inr hm.symm
    · intro _ _ m hm
      simp only [Option.some.injEq, SockEntry.socket.injEq] at hm
      exact hm.symm
  | chmodOther ok r hp he =>
    refine ⟨h.umask, h.mode, ?_, h.clients, h.served, fun _ => by simp⟩
    intro _ _ m hm
    rw [show a.entry = some (.socket m) from hm] at he
    cases he
  | notChanged ok hp => exact ⟨h.umask, h.mode, nofun, h.clients, h.served, fun _ => by simp⟩
  | connect w m hl he hp =>
    refine ⟨h.umask, h.mode, h.done, ?_, h.served.trans (List.prefix_append _ _), h.pc⟩
    intro x hx
    rcases List.mem_append.1 hx with hx | hx
    · exact h.clients x hx
    · rw [List.mem_singleton.1 hx]
      rcases h.mode m he with rfl | rfl
      · rw [newSocketMode_bit] at hp
        right
        simpa using hp
      · left
        cases w
        · rfl
        · exact absurd hp (by decide)
        · exact absurd hp (by decide)
  | accept w hp hn hw =>
    refine ⟨h.umask, h.mode, h.done, h.clients, ?_, h.pc⟩
    obtain ⟨t, ht⟩ := h.served
    rw [← ht, List.getElem?_append_right (by simp)] at hw
    cases t with
    | nil => simp at hw
    | cons x t =>
      simp at hw
      subst hw
      exact ⟨t, by simpa using ht⟩

theorem ListenReachable.inv {address : Bytes} {u : Nat} {e : Option Bool} {s : ListenSys}
    (h : ListenReachable address u e s) : ListenInv u s := by
  induction h with
  | init =>
    refine ⟨rfl, ?_, ?_, by simp [ListenSys.init], by simp [ListenSys.init], by simp [ListenSys.init]⟩
    · intro m hm
      cases e <;> simp [ListenSys.init] at hm
    · intro _ _ m hm
      cases e <;> simp [ListenSys.init] at hm
  | step _ hs ih => exact ih.step hs

/-- **C93** (what does hold). Once the server listens on a Unix socket, only its own user can connect. And with a umask
that takes away the write permission of group and others, which is usual, nobody else ever could. -/
theorem C93_private_partial {address : Bytes} {u : Nat} {e : Option Bool} {s : ListenSys}
    (h : ListenReachable address u e s) :
    (s.unix = true → s.pc = .done true → ∀ s' w, ListenStep s s' → s'.clients = s.clients ++ [w] → w = .owner) ∧
    (u.testBit 4 = true → u.testBit 1 = true → (∀ w ∈ s.clients, w = .owner) ∧ ∀ w ∈ s.served, w = .owner) := by
  have hi := h.inv
  refine ⟨?_, ?_⟩
  · intro hu hd s' w hs he
    have ne : s.clients ≠ s.clients ++ [w] := by
      intro e; have := congrArg List.length e; simp at this
    cases hs with
    | connect w' m hl hm hp =>
      have : w' = w := by
        have := List.append_cancel_left he
        simpa using this
      subst this
      rw [hi.done hu hd m hm] at hp
      cases w'
      · rfl
      · exact absurd hp (by decide)
      · exact absurd hp (by decide)
    | _ => exact absurd he ne
  · intro h4 h1
    have hc : ∀ w ∈ s.clients, w = .owner := by
      intro w hw
      rcases hi.clients w hw with h | h
      · exact h
      · cases w
        · rfl
        · rw [show Who.writeBit .group = 4 from rfl, h4] at h; cases h
        · rw [show Who.writeBit .other = 1 from rfl, h1] at h; cases h
    exact ⟨hc, fun w hw => hc w (hi.served.subset hw)⟩

/-- `unix://s` -/
def demoSocket : Bytes := [117, 110, 105, 120, 58, 47, 47, 115]

/-- **C93** (the English property does not hold). The permissions are restricted after the socket is listening: with a
umask that leaves the write permission, anybody who connects in between is served. And the permissions of a
`unixpacket` socket are never restricted. -/
theorem C93_private_counterexample :
    (∃ s, ListenReachable demoSocket 0 none s ∧ s.unix = true ∧ s.pc = .done true ∧ .other ∈ s.served) ∧
    ∃ address s, networkAndAddress address = ([117, 110, 105, 120, 112, 97, 99, 107, 101, 116], [115]) ∧
      ListenReachable address 0 none s ∧ s.pc = .done true ∧ s.entry = some (.socket 0o777) ∧ .other ∈ s.served := by
  refine ⟨?_, ?_⟩
  · have h0 : ListenReachable demoSocket 0 none _ := .init
    have h1 := h0.step (.notRemoved _ (by decide +kernel))
    have h2 := h1.step (.bind _ rfl rfl)
    have h3 := h2.step (.listen _ rfl)
    have h4 := h3.step (.connect _ .other 0o777 rfl (by decide +kernel) (by decide))
    have h5 := h4.step (.chmod _ true 0o777 (by decide +kernel) (by decide +kernel))
    have h6 := h5.step (.accept _ .other rfl (by decide +kernel) (by decide +kernel))
    exact ⟨_, h6, by decide +kernel, rfl, by decide +kernel⟩
  · refine ⟨[117, 110, 105, 120, 112, 97, 99, 107, 101, 116] ++ [58, 47, 47] ++ [115], ?_⟩
    have h0 : ListenReachable ([117, 110, 105, 120, 112, 97, 99, 107, 101, 116] ++ [58, 47, 47] ++ [115]) 0 none _ := .init
    have h2 := h0.step (.bind _ (by decide +kernel) rfl)
    have h3 := h2.step (.listen _ rfl)
    have h4 := h3.step (.connect _ .other 0o777 rfl (by decide +kernel) (by decide))
    have h5 := h4.step (.accept _ .other (by decide +kernel) (by decide +kernel) (by decide +kernel))
    exact ⟨_, by decide +kernel, h5, by decide +kernel, by decide +kernel, by decide +kernel⟩

/-- What is at the address is removed for Unix sockets only; listening fails when something is left there. -/
theorem C93_removes_only_for_unix {address : Bytes} {u : Nat} {e : Bool} {s : ListenSys}
    (h : ListenReachable address u (some e) s)
    (hk : (networkAndAddress (listenAddress address)).1 ≠ [117, 110, 105, 120] ∨ e = false) :
    s.entry = some (.other e) ∧ s.listening = false ∧ s.pc ≠ .done true ∧ s.clients = [] := by
  have inv : s.entry = some (.other e) ∧ s.listening = false ∧ s.clients = [] ∧
      (s.pc = .remove → e = false) ∧ s.pc ≠ .listen ∧ s.pc ≠ .chmod true ∧ s.pc ≠ .done true := by
    induction h with
    | init =>
      refine ⟨rfl, rfl, rfl, ?_, ?_, ?_, ?_⟩
      · intro hp
        rcases hk with hk | hk
        · simp only [ListenSys.init] at hp
          rw [if_neg (show ¬ _ = unixNet from hk)] at hp
          cases hp
        · exact hk
      all_goals
        simp only [ListenSys.init]
        split <;> simp
    | @step a b _ hs ih =>
      obtain ⟨i1, i2, i3, i4, i5, i6, i7⟩ := ih
      cases hs with
      | remove x hp hx hr =>
        rw [i1] at hx
        cases hx
        rw [i4 hp] at hr
        exact absurd rfl hr
      | notRemoved hp => exact ⟨i1, i2, i3, nofun, nofun, nofun, nofun⟩
      | bind hp hx => rw [i1] at hx; cases hx
      | notBound hp =>
        refine ⟨i1, i2, i3, ?_, ?_, ?_, ?_⟩
        all_goals
          simp only [ListenSys.after]
          split <;> simp
      | listen hp => exact absurd hp i5
      | notListening hp => exact absurd hp i5
      | chmod ok m hp hx => rw [i1] at hx; cases hx
      | chmodOther ok r hp hx =>
        refine ⟨i1, i2, i3, nofun, nofun, nofun, ?_⟩
        rintro ⟨⟩
        exact i6 hp
      | notChanged ok hp => exact ⟨i1, i2, i3, nofun, nofun, nofun, nofun⟩
      | connect w m hl hm hp => rw [i2] at hl; cases hl
      | accept w hp hn hw => exact absurd hp i7
  exact ⟨inv.1, inv.2.1, inv.2.2.2.2.2.2, inv.2.2.1⟩

/-- When the permissions of the socket cannot be changed, the call fails and leaves the listener open: whoever the permissions of a
new socket allow to connects, and nobody serves them. -/
theorem C93_leak_counterexample : ∃ address s, ListenReachable address 0 (some true) s ∧ s.pc = .done false ∧
    s.listening = true ∧ s.clients = [.other] ∧ ∀ s', ListenStep s s' → s'.served = [] := by
  refine ⟨[117, 110, 105, 120, 58, 47, 47, 115], ?_⟩
  have h0 : ListenReachable [117, 110, 105, 120, 58, 47, 47, 115] 0 (some true) _ := .init
  have h1 := h0.step (.remove _ (.other true) (by decide +kernel) rfl nofun)
  have h2 := h1.step (.bind _ rfl rfl)
  have h3 := h2.step (.listen _ rfl)
  have h4 := h3.step (.notChanged _ true (by decide +kernel))
  have h5 := h4.step (.connect _ .other 0o777 rfl (by decide +kernel) (by decide))
  refine ⟨_, h5, rfl, rfl, rfl, ?_⟩
  intro s' hs
  cases hs with
  | accept w hp => cases hp
  | _ => rfl

end Verif
