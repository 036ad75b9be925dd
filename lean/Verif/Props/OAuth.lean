import Verif.Props.Setup
import Verif.Props.Routing
import Verif.Proof.SysService
import Mathlib.Data.List.Induction

/-!
# C114: the OAuth2 plugin and the engine together
-/

namespace Neutron.Props

open Neutron Neutron.Sys Neutron.Trace

/-- What the plugin answered in this step, if the step asks it: the engine takes a `CONNECT` out of a client's channel. -/
def asked (s : State) : Act → Option (Outcome Bytes)
  | .engOut i auth _ => match (s.clients i).queue with
    | cm :: _ => match cm.out with
      | .connect _ => some auth
      | _ => none
    | [] => none
  | _ => none

/-- A run of an instance whose plugin is the OAuth2 one: each time the engine asks, the answer is that of the plugin's next call. -/
inductive WithOAuth (cfg : Cfg) (clock : Auth.Clock) : List Act → List Auth.CallInput → State → Prop where
  | nil : WithOAuth cfg clock [] [] (init cfg)
  | other {as : List Act} {is : List Auth.CallInput} {s s' : State} {a : Act} (h : WithOAuth cfg clock as is s)
      (hs : step cfg s a = some s') (ha : asked s a = none) : WithOAuth cfg clock (as ++ [a]) is s'
  | asks {as : List Act} {is : List Auth.CallInput} {s s' : State} {a : Act} (h : WithOAuth cfg clock as is s)
      (hs : step cfg s a = some s') (i : Auth.CallInput)
      (ha : asked s a = some (Auth.authData clock (Auth.run clock is).1 i).2.outcome) : WithOAuth cfg clock (as ++ [a]) (is ++ [i]) s'

/-- After the plugin's calls `before`, the call `i` may use token `t`: the endpoint issues it in this call, or issued it in an
earlier one and its lifetime has not passed when this call is made. -/
def ValidToken (before : List Auth.CallInput) (i : Auth.CallInput) (t : String) : Prop :=
  (∃ s, i.response = .token t s) ∨
  ∃ g s, g ∈ before ∧ g.response = .token t s ∧ i.now ≤ g.later + s * 1000000000

theorem run_inputs (clock : Auth.Clock) (is : List Auth.CallInput) : (Auth.run clock is).2.map (·.1) = is := by
  induction is using List.reverseRecOn with
  | nil => rfl
  | append_singleton is i ih =>
    rw [(C61_token_cache clock is i).2.2.2, List.map_append, ih]
    rfl

theorem lastGrant_mem {h : List (Auth.CallInput × Auth.CallResult)} {t : String} {e : Int} (hg : Auth.lastGrant h = some (t, e)) :
    ∃ g s, g ∈ h.map (·.1) ∧ g.response = .token t s ∧ e = g.later + s * 1000000000 := by
  induction h with
  | nil => cases hg
  | cons x h ih =>
    obtain ⟨i, r⟩ := x
    rw [Auth.lastGrant] at hg
    cases hl : Auth.lastGrant h with
    | some g =>
      rw [hl] at hg
      obtain ⟨g', s, hm, h1, h2⟩ := ih (hl.trans hg)
      exact ⟨g', s, List.mem_cons_of_mem _ hm, h1, h2⟩
    | none =>
      rw [hl] at hg
      dsimp only at hg
      split at hg
      · rename_i t' s' _ _ hr _
        simp only [Option.some.injEq, Prod.mk.injEq] at hg
        exact ⟨i, s', List.mem_cons_self, hg.1 ▸ hr, hg.2.symm⟩
      · cases hg

/-- A call of the plugin that succeeds returns a valid token. -/
theorem valid_of {clock : Auth.Clock} {is : List Auth.CallInput} {i : Auth.CallInput} {d : Bytes}
    (h : (Auth.authData clock (Auth.run clock is).1 i).2.outcome = .ok d) : ∃ t, d = t.toUTF8.toList ∧ ValidToken is i t := by
  obtain ⟨h1, h2, h3, _⟩ := C61_token_cache clock is i
  cases hr : (Auth.authData clock (Auth.run clock is).1 i).2.requested with
  | false =>
    obtain ⟨t, e, hg, he⟩ := h1.mp hr
    have := (h2 t e hg he).symm.trans h
    cases this
    obtain ⟨g, s, hm, hgr, rfl⟩ := lastGrant_mem hg
    rw [run_inputs] at hm
    exact ⟨t, rfl, .inr ⟨g, s, hm, hgr, he⟩⟩
  | true =>
    have h3 := h3 hr
    cases hi : i.response with
    | failed m => rw [hi] at h3; rw [h] at h3; cases h3
    | token t s =>
      rw [hi] at h3
      rcases h3 with h3 | ⟨h3, _⟩
      · rw [h] at h3
        cases h3
        exact ⟨t, rfl, .inl ⟨s, hi⟩⟩
      · rw [h] at h3; cases h3

theorem sent_one {cfg : Cfg} {s s' : State} {a : Act} (hs : step cfg s a = some s') : s'.sent = s.sent ∨ ∃ x, s'.sent = s.sent ++ [x] := by
  cases step_cases hs with
  | startOk net hm s2 h2 => rcases h2 with ⟨rfl, hb⟩ | ⟨hb, rfl⟩ <;> exact .inl (by simp)
  | out j auth net cmd q s'' hm hv ha hq he =>
    cases he with
    | failed => exact .inl (by simp)
    | lost c c2 b s3 hcc h2 hb hp => exact .inl (by simp [hp.sent])
    | sent j hn => exact .inr ⟨_, by simp [pushed]; rfl⟩
    | connecting c c2 b s3 j hcc h2 hb hp hj ha hl => exact .inr ⟨_, by simp [pushed, hp.sent]; rfl⟩
  | inb b e q s'' hm ha hv hq he =>
    cases he with
    | ping => exact .inr ⟨_, by simp [pushed]; rfl⟩
    | pingFailed => exact .inl (by simp)
    | other => exact .inl (by simp)
  | _ => exact .inl (by simp)

theorem WithOAuth.reachable {cfg : Cfg} {clock : Auth.Clock} {as : List Act} {is : List Auth.CallInput} {s : State}
    (h : WithOAuth cfg clock as is s) : Reachable cfg s := by
  induction h with
  | nil => exact ⟨_, .nil⟩
  | other _ hs _ ih => exact ih.step hs
  | asks _ hs _ _ ih => exact ih.step hs

/-- Every `CONNECT` ever passed on to a connection names the method `token` and carries, as its data, the bytes of an access token
the endpoint issued, in the plugin's call made for this `CONNECT` or in an earlier one whose token had not expired at this call. -/
theorem C114_valid_token {cfg : Cfg} {clock : Auth.Clock} (hm : cfg.authMethod = some Auth.methodName) {as : List Act}
    {is : List Auth.CallInput} {s : State} (h : WithOAuth cfg clock as is s) {b : BrokerAddress} {c : ConnCmd} {k : Connect}
    (hc : c ∈ (s.conns b).accepted) (hk : c.out = .connect k) :
    k.authMethodName = some "token" ∧
    ∃ before i after t, is = before ++ i :: after ∧ ValidToken before i t ∧ k.authData = some t.toUTF8.toList := by
  refine ⟨by rw [(C30_credentials h.reachable hc hk).1, hm]; rfl, ?_⟩
  rw [(conn h.reachable).accepted, mem_sentTo] at hc
  have new : ∀ {as : List Act} {is : List Auth.CallInput} {s s' : State} {a : Act}, WithOAuth cfg clock as is s → step cfg s a = some s' →
      s'.sent = s.sent ++ [(b, c)] → ∃ auth d, asked s a = some auth ∧ auth = .ok d ∧ k.authData = some d := by
    intro as is s s' a h hs hx
    obtain ⟨i, auth, net, cm, q, k0, rfl, hq, ho, _⟩ := C30_only_source h.reachable hs hx hk
    refine ⟨auth, ?_⟩
    rcases C30_fresh_answer hm hq ho hs with ⟨_, h2⟩ | ⟨d, b', c', k2, rfl, h2, h3, h4, _⟩
    · rw [h2] at hx; exact absurd (congrArg List.length hx) (by simp)
    · rw [hx] at h2
      have := List.append_cancel_left h2
      simp only [List.cons.injEq, Prod.mk.injEq, and_true] at this
      obtain ⟨rfl, rfl⟩ := this
      rw [hk] at h3
      cases h3
      exact ⟨d, by simp [asked, hq, ho], rfl, h4⟩
  induction h with
  | nil => exact absurd hc (by simp [init])
  | other h hs ha ih =>
    rcases sent_one hs with h' | ⟨x, h'⟩
    · exact ih (h' ▸ hc)
    · rw [h', List.mem_append, List.mem_singleton] at hc
      rcases hc with hc | rfl
      · exact ih hc
      · obtain ⟨_, _, h1, _⟩ := new h hs h'
        rw [ha] at h1; cases h1
  | asks h hs i ha ih =>
    rename_i as is s s' a
    have old : (b, c) ∈ s.sent → ∃ before i' after t, is ++ [i] = before ++ i' :: after ∧ ValidToken before i' t ∧
        k.authData = some t.toUTF8.toList := fun hc => by
      obtain ⟨p, j, q, t, rfl, h1, h2⟩ := ih hc
      exact ⟨p, j, q ++ [i], t, by simp, h1, h2⟩
    rcases sent_one hs with h' | ⟨x, h'⟩
    · exact old (h' ▸ hc)
    · rw [h', List.mem_append, List.mem_singleton] at hc
      rcases hc with hc | rfl
      · exact old hc
      · obtain ⟨auth, d, h1, h2, h3⟩ := new h hs h'
        rw [ha] at h1
        cases h1
        obtain ⟨t, rfl, hv⟩ := valid_of h2
        exact ⟨is, i, [], t, rfl, hv, h3⟩

/-- If the plugin fails, nothing is passed on to any connection and the engine stops. -/
theorem C114_failure_stops {cfg : Cfg} {clock : Auth.Clock} (hm : cfg.authMethod = some Auth.methodName) {as : List Act}
    {is : List Auth.CallInput} {s s' : State} {a : Act} (_h : WithOAuth cfg clock as is s) (hs : step cfg s a = some s') (i : Auth.CallInput)
    (ha : asked s a = some (Auth.authData clock (Auth.run clock is).1 i).2.outcome)
    (hf : ∀ d, (Auth.authData clock (Auth.run clock is).1 i).2.outcome ≠ .ok d) : s'.mode = .stopped ∧ s'.sent = s.sent := by
  unfold asked at ha
  split at ha
  · rename_i j auth net
    split at ha
    · rename_i cm q hq
      split at ha
      · rename_i k ho
        cases ha
        rcases C30_fresh_answer hm hq ho hs with h2 | ⟨d, _, _, _, h1, _⟩
        · exact h2
        · exact absurd h1 (hf d)
      · cases ha
    · cases ha
  · cases ha

/-! ## An example -/

namespace OAuthExample

/-- Steps other than the engine's taking commands ask nothing. -/
def Quiet : Act → Bool
  | .engOut _ _ _ => false
  | _ => true

theorem others {cfg : Cfg} {clock : Auth.Clock} (bs : List Act) (hq : bs.all Quiet = true) {as : List Act} {is : List Auth.CallInput} {s s' : State}
    (h : WithOAuth cfg clock as is s) (hx : exec cfg s bs = some s') : WithOAuth cfg clock (as ++ bs) is s' := by
  induction bs generalizing as s with
  | nil => rw [List.append_nil]; cases hx; exact h
  | cons a bs ih =>
    simp only [List.all_cons, Bool.and_eq_true] at hq
    unfold exec at hx
    cases hs : step cfg s a with
    | none => rw [hs] at hx; cases hx
    | some s1 =>
      rw [hs] at hx
      rw [List.append_cons]
      refine ih hq.2 (.other h hs ?_) hx
      cases a <;> first | rfl | (exact absurd hq.1 (by simp [Quiet]))

def clock : Auth.Clock := ⟨-1000000000000, 1000000000000⟩

/-- The plugin is called twice: a token for ten seconds is issued at time 0; ten seconds later it is still used. -/
def calls : List Auth.CallInput := [⟨0, .token "a" 10, 0⟩, ⟨10000000000, .failed "down", 0⟩]

def answer : Outcome Bytes := .ok "a".toUTF8.toList

def first : List Act := boot ++ join 0 ++ [.beginCall 0 .connect, .submit 0 0]
def second : List Act := [.connCmd b0 .ok, .connRead b0 (.command connectedC (some 0)), .engConnectDone] ++ join 1 ++ [.beginCall 1 .connect, .submit 1 0]

/-- Two clients connect; the second connect is made with the token of the first. (The hypotheses of C114_valid_token are met.) -/
example : ∃ as s, WithOAuth cfgA clock as calls s ∧ cfgA.authMethod = some Auth.methodName ∧
    (s.conns b0).accepted.map (fun c => match c.out with
      | .connect k => (k.authMethodName, k.authData)
      | _ => (none, none)) = [(some "token", some "a".toUTF8.toList), (some "token", some "a".toUTF8.toList)] := by
  have h1 : WithOAuth cfgA clock first [] _ := others first rfl .nil rfl
  have h2 := h1.asks (a := .engOut 0 answer net0) rfl ⟨0, .token "a" 10, 0⟩ rfl
  have h3 := others second rfl h2 rfl
  have h4 := h3.asks (a := .engOut 1 answer net0) rfl ⟨10000000000, .failed "down", 0⟩ rfl
  exact ⟨_, _, h4, rfl, rfl⟩

/-- A nanosecond later the token has expired; a new one is asked for, and as that fails, the engine stops. (The hypotheses
of C114_failure_stops are met.) -/
example : ∃ as s i, WithOAuth cfgA clock as [⟨0, .token "a" 10, 0⟩] s ∧ ∃ a s', step cfgA s a = some s' ∧
    asked s a = some (Auth.authData clock (Auth.run clock [⟨0, .token "a" 10, 0⟩]).1 i).2.outcome ∧ s'.mode = .stopped := by
  have h1 : WithOAuth cfgA clock first [] _ := others first rfl .nil rfl
  have h2 := h1.asks (a := .engOut 0 answer net0) rfl ⟨0, .token "a" 10, 0⟩ rfl
  have h3 := others second rfl h2 rfl
  exact ⟨_, _, ⟨10000000001, .failed "down", 0⟩, h3, .engOut 1 (.err (.authenticationFailed "down")) net0, _, rfl, rfl, rfl⟩

end OAuthExample

end Neutron.Props
