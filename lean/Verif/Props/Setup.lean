import Verif.Spec.Auth
import Verif.Model.Connect

/-!
# Properties of authentication and connection set-up (C61, C63/C94)
-/

namespace Neutron.Props

open Auth

theorem lastGrant_snoc (h : List (CallInput × CallResult)) (x : CallInput × CallResult) :
    lastGrant (h ++ [x]) = match lastGrant [x] with
      | some g => some g
      | none => lastGrant h := by
  induction h with
  | nil => simp only [List.nil_append]; cases lastGrant [x] <;> rfl
  | cons y h ih =>
    obtain ⟨i, r⟩ := y
    rw [List.cons_append, lastGrant, ih]
    cases hx : lastGrant [x] with
    | some g => rfl
    | none => rfl

/-- The cache always holds exactly the last grant of the history. -/
theorem cache_is_lastGrant (clock : Clock) (is : List CallInput) :
    (run clock is).1 = (lastGrant (run clock is).2).map fun g => ⟨g.1, g.2⟩ := by
  suffices h : ∀ (is : List CallInput) (c : Option CachedToken) (rs : List (CallInput × CallResult)),
      c = (lastGrant rs).map (fun g => (⟨g.1, g.2⟩ : CachedToken)) →
      (is.foldl (fun (c, rs) i => let (c', r) := authData clock c i; (c', rs ++ [(i, r)])) (c, rs)).1 =
      (lastGrant (is.foldl (fun (c, rs) i => let (c', r) := authData clock c i; (c', rs ++ [(i, r)])) (c, rs)).2).map
        fun g => ⟨g.1, g.2⟩ from h is none [] rfl
  intro is
  induction is with
  | nil => intro c rs h; simpa using h
  | cons i is ih =>
    intro c rs h
    simp only [List.foldl_cons]
    refine ih _ _ ?_
    rw [lastGrant_snoc]
    subst h
    unfold authData Clock.after
    cases hg : lastGrant rs with
    | none =>
      cases hr : i.response with
      | failed m => simp [lastGrant, hr]
      | token t s =>
        simp only [Option.map_none]
        split <;> rename_i heq <;> split at heq <;> cases heq <;> simp [lastGrant, hr]
    | some g =>
      simp only [Option.map_some]
      by_cases he : CachedToken.isExpired ⟨g.1, g.2⟩ i.now = true
      · simp only [he, if_true]
        cases hr : i.response with
        | failed m => simp [lastGrant, hr]
        | token t s =>
          dsimp only
          split <;> rename_i heq <;> split at heq <;> cases heq <;> simp [lastGrant, hr]
      · simp [he, lastGrant]

/-- C61: for every sequence of calls, clock readings and endpoint answers, the next call returns the last granted token
without a request exactly when there is one that has not passed its expiry; otherwise it makes a request: a granted token
is returned, a failure is reported (and, by `lastGrant`, caches nothing). -/
theorem C61_token_cache (clock : Clock) (is : List CallInput) (i : CallInput) :
    let history := (run clock is).2
    let r := (authData clock (run clock is).1 i).2
    ((r.requested = false) ↔ ∃ t e, lastGrant history = some (t, e) ∧ i.now ≤ e) ∧
    (∀ t e, lastGrant history = some (t, e) → i.now ≤ e → r.outcome = .ok t.toUTF8.toList) ∧
    (r.requested = true → match i.response with
      | .failed m => r.outcome = .err (.authenticationFailed m)
      | .token t s => r.outcome = .ok t.toUTF8.toList ∨
          (r.outcome = .panic ∧ ¬ (clock.minTime ≤ i.later + s * 1000000000 ∧ i.later + s * 1000000000 ≤ clock.maxTime))) ∧
    (run clock (is ++ [i])).2 = history ++ [(i, r)] := by
  intro history r
  have hc := cache_is_lastGrant clock is
  refine ⟨?_, ?_, ?_, ?_⟩
  · simp only [r, hc, authData]
    change _ ↔ ∃ t e, lastGrant (run clock is).2 = some (t, e) ∧ i.now ≤ e
    cases hg : lastGrant (run clock is).2 with
    | none =>
      simp only [Option.map_none]
      cases i.response with
      | failed m => simp
      | token t s => dsimp only; split <;> simp
    | some g =>
      simp only [Option.map_some, CachedToken.isExpired, decide_eq_true_eq]
      split
      · rename_i he
        have : ¬ ∃ t e, some g = some (t, e) ∧ i.now ≤ e := by
          rintro ⟨t, e, h1, h2⟩; cases h1; omega
        simp only [this, iff_false]
        cases i.response with
        | failed m => simp
        | token t s => dsimp only; split <;> simp
      · rename_i he
        simp only [true_iff]
        exact ⟨g.1, g.2, rfl, by omega⟩
  · intro t e hg he
    change lastGrant (run clock is).2 = some (t, e) at hg
    simp only [r, hc, hg, authData, Option.map_some, CachedToken.isExpired, decide_eq_true_eq]
    rw [if_neg (by omega)]
  · have key : ∀ (cache : Option CachedToken), (authData clock cache i).2.requested = true → match i.response with
      | .failed m => (authData clock cache i).2.outcome = .err (.authenticationFailed m)
      | .token t s => (authData clock cache i).2.outcome = .ok t.toUTF8.toList ∨
          ((authData clock cache i).2.outcome = .panic ∧
            ¬ (clock.minTime ≤ i.later + s * 1000000000 ∧ i.later + s * 1000000000 ≤ clock.maxTime)) := by
      intro cache
      unfold authData Clock.after
      cases cache with
      | none =>
        cases hr : i.response with
        | failed m => simp
        | token t s =>
          dsimp only
          split <;> rename_i heq <;> split at heq <;> cases heq <;> simp
          omega
      | some c =>
        dsimp only
        by_cases he : c.isExpired i.now = true
        · simp only [he, if_true]
          cases hr : i.response with
          | failed m => simp
          | token t s =>
            dsimp only
            split <;> rename_i heq <;> split at heq <;> cases heq <;> simp
            omega
        · simp [he]
    exact key _
  · simp only [run, List.foldl_append, List.foldl_cons, List.foldl_nil]
    rfl

/-- A history with a grant, a cached answer, and an expiry: the third call requests again. (The hypotheses of C61_token_cache are met.) -/
example : ((run ⟨-1000000000000, 1000000000000⟩ [⟨0, .token "a" 10, 0⟩, ⟨10000000000, .failed "x", 0⟩, ⟨10000000001, .failed "y", 0⟩]).2.map
    fun p => p.2.requested) = [true, false, true] := by decide

/-- Outside chrono's range the lifetime of a granted token crashes the caller. -/
theorem C61_huge_lifetime_panics (clock : Clock) (t : String) (s now later : Int)
    (h : clock.maxTime < later + s * 1000000000) : (authData clock none ⟨now, .token t s, later⟩).2.outcome = .panic := by
  have : ¬ (clock.minTime ≤ later + s * 1000000000 ∧ later + s * 1000000000 ≤ clock.maxTime) := by omega
  simp [authData, Clock.after, this]

/-! ## C63/C94 TLS -/

/-- C63: what the configuration says about TLS is what the connection to the configured broker does: adding the port to the endpoint
never makes or breaks the scheme. -/
theorem C63_config_agrees (c : PulsarConfig) : c.isTls = true ↔
    "pulsar+ssl://".toList <+: (c.endpointUrl ++ ":" ++ toString c.endpointPort.toNat).toList := by
  have h0 : c.isTls = true ↔ "pulsar+ssl://".toList <+: c.endpointUrl.toList := by
    unfold PulsarConfig.isTls startsWith
    exact List.isPrefixOf_iff_prefix
  rw [h0, String.toList_append, String.toList_append]
  generalize c.endpointUrl.toList = u
  have hd : ∀ x, x ∈ (toString c.endpointPort.toNat).toList → x ≠ '/' := by
    intro x hx
    show x ≠ '/'
    have hx' : x ∈ (Nat.repr c.endpointPort.toNat).toList := hx
    rw [Nat.toList_repr] at hx'
    rintro rfl
    exact absurd (Nat.isDigit_of_mem_toDigits (by decide) (by decide) hx') (by decide)
  generalize (toString c.endpointPort.toNat).toList = d at hd
  constructor
  · intro h
    rw [List.append_assoc]
    exact h.trans (List.prefix_append ..)
  · intro h
    rw [List.append_assoc] at h
    rcases Nat.lt_or_ge u.length "pulsar+ssl://".toList.length with hl | hl
    · exfalso
      obtain ⟨t, ht⟩ := h
      have ht' : "pulsar+ssl:/".toList ++ '/' :: t = u ++ (":".toList ++ d) := by rw [← ht]; rfl
      have hl' : u.length ≤ "pulsar+ssl:/".toList.length := Nat.le_of_lt_succ hl
      rcases List.append_eq_append_iff.mp ht' with ⟨a, h1, h2⟩ | ⟨a, h1, h2⟩
      · have : a = [] := by
          have := congrArg List.length h1
          simp only [List.length_append] at this
          exact List.length_eq_zero_iff.mp (by omega)
        subst this
        simp at h2
      · have hm : '/' ∈ ":".toList ++ d := by rw [h2]; simp
        rcases List.mem_append.mp hm with hm | hm
        · revert hm; decide
        · exact hd _ hm rfl
    · exact List.prefix_of_prefix_length_le h (List.prefix_append ..) hl

/-- A configuration as in C63_config_agrees (no hypotheses). -/
example : (⟨"pulsar+ssl://a", 6651⟩ : PulsarConfig).isTls = true := by decide

/-- C62: an address has a proxied target exactly if it says so. -/
theorem C62_proxy_known (a : BrokerAddress) : a.isProxy = a.getProxy.isSome := by cases a <;> rfl

/-- For every address and every behaviour of the outside world: the connection is encrypted exactly when the address dialled
starts with `pulsar+ssl://`; a failed handshake gives an error, never a plain connection; every failure is reported as the
matching error, except that a host that is not a valid TLS server name panics. -/
theorem C63_tls (net : Net) (a : BrokerAddress) :
    (∀ t, openConnection net a = .ok t → (t = .tls ↔ "pulsar+ssl://".toList <+: a.baseUrl.toList)) ∧
    (openConnection net a = .panic ↔ "pulsar+ssl://".toList <+: a.baseUrl.toList ∧
      ∃ host port, net.parseUrl a.baseUrl = some (some host, some port) ∧ net.dial host port = true ∧ net.serverName host = false) ∧
    (∀ host port, net.parseUrl a.baseUrl = some (some host, some port) →
      (net.dial host port = false → openConnection net a = .err .connectionFailed) ∧
      (net.dial host port = true → "pulsar+ssl://".toList <+: a.baseUrl.toList → net.serverName host = true →
        openConnection net a = if net.handshake host then .ok .tls else .err .connectionFailed) ∧
      (net.dial host port = true → ¬ "pulsar+ssl://".toList <+: a.baseUrl.toList → openConnection net a = .ok .tcp)) ∧
    ((¬ ∃ host port, net.parseUrl a.baseUrl = some (some host, some port)) → openConnection net a = .err .invalidUrl) := by
  have htls : a.isTls = true ↔ "pulsar+ssl://".toList <+: a.baseUrl.toList := by
    unfold BrokerAddress.isTls startsWith
    exact List.isPrefixOf_iff_prefix
  unfold openConnection
  rw [← htls]
  cases hp : net.parseUrl a.baseUrl with
  | none => simp [Outcome.okOr]
  | some u =>
    obtain ⟨h, p⟩ := u
    cases h with
    | none => simp [Outcome.okOr]
    | some host =>
      cases p with
      | none => simp [Outcome.okOr]
      | some port =>
        simp only [Outcome.okOr, Outcome.bind_ok]
        cases hd : net.dial host port <;> cases ht : a.isTls <;> cases hs : net.serverName host <;>
          cases hh : net.handshake host <;> simp_all
        all_goals exact ⟨_, _, ⟨rfl, rfl⟩, hd, hs⟩

/-- "Unusable addresses are reported as errors" is false: an IPv6 literal parses and may be dialled, but with its brackets it
is not a valid TLS server name, and the client panics. -/
theorem C94_refuted : ∃ (net : Net), openConnection net (.direct "pulsar+ssl://[::1]:6651") = .panic :=
  ⟨⟨fun _ => some (some "[::1]", some 6651), fun _ _ => true, fun h => h != "[::1]", fun _ => true⟩, by decide⟩

/-- A connection as in C63_tls (no hypotheses). -/
example : openConnection ⟨fun _ => some (some "h", some 6651), fun _ _ => true, fun _ => true, fun _ => true⟩
    (.direct "pulsar+ssl://h:6651") = .ok .tls := by decide

end Neutron.Props
