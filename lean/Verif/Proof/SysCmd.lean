import Verif.Proof.SysEvt
import Verif.Spec.Sys

/-!
# Commands: from the clients to the connections
-/

namespace Neutron.Sys

open Neutron

/-- The connection a client is on after a command, if it was on `cur` before. -/
def hop (cfg : Cfg) (cur : BrokerAddress) : Outbound → BrokerAddress
  | .connect c => match connectAddress cfg c.brokerAddress with
    | some b => if b = cfg.config.brokerAddress then cur else b
    | none => cur
  | _ => cur

/-- The connection each command of a client goes to. -/
def routeAll (cfg : Cfg) (cur : BrokerAddress) : List ClientCmd → List (BrokerAddress × ClientCmd)
  | [] => []
  | c :: l => (hop cfg cur c.out, c) :: routeAll cfg (hop cfg cur c.out) l

/-- The connection a client ends up on. -/
def lastHop (cfg : Cfg) (cur : BrokerAddress) : List ClientCmd → BrokerAddress
  | [] => cur
  | c :: l => lastHop cfg (hop cfg cur c.out) l

theorem lastHop_append (cfg : Cfg) (cur : BrokerAddress) (l : List ClientCmd) (c : ClientCmd) :
    lastHop cfg cur (l ++ [c]) = hop cfg (lastHop cfg cur l) c.out := by
  induction l generalizing cur with
  | nil => rfl
  | cons a l ih => exact ih _

theorem routeAll_append (cfg : Cfg) (cur : BrokerAddress) (l : List ClientCmd) (c : ClientCmd) :
    routeAll cfg cur (l ++ [c]) = routeAll cfg cur l ++ [(lastHop cfg cur (l ++ [c]), c)] := by
  induction l generalizing cur with
  | nil => rfl
  | cons a l ih => simp only [List.cons_append, routeAll, lastHop, ih]

theorem routeAll_map_snd (cfg : Cfg) (cur : BrokerAddress) (l : List ClientCmd) : (routeAll cfg cur l).map (·.2) = l := by
  induction l generalizing cur with
  | nil => rfl
  | cons a l ih => simp [routeAll, ih]

theorem passedOn_append (l l' : List (BrokerAddress × ConnCmd)) (i : Nat) :
    passedOn (l ++ l') i = passedOn l i ++ passedOn l' i := List.filterMap_append

theorem passedOn_single (b : BrokerAddress) (c : ConnCmd) (j i : Nat) (cmd : ClientCmd) (h : c.origin = some (j, cmd)) :
    passedOn [(b, c)] i = if j = i then [(b, cmd)] else [] := by
  unfold passedOn
  by_cases hji : j = i <;> simp [h, hji]

theorem passedOn_pong (b : BrokerAddress) (c : ConnCmd) (i : Nat) (h : c.origin = none) : passedOn [(b, c)] i = [] := by
  simp [passedOn, h]

/-- What the engine sends for a client's command. -/
def Passes (cfg : Cfg) (cmd : Outbound) (out : Outbound) : Prop :=
  match cmd with
  | .connect c => ∃ auth c2, connectFor cfg c auth = .ok c2 ∧ out = .connect c2
  | cmd => out = cmd

/-- Number of pongs sent to `b`, and of pings handled from it. -/
def pongsTo (l : List (BrokerAddress × ConnCmd)) (b : BrokerAddress) : Nat :=
  (l.filter fun p => decide (p.1 = b) && p.2.origin.isNone).length

def pingsFrom (l : List Dispatch) (b : BrokerAddress) : Nat :=
  (l.filter fun d => decide (d.broker = b) && decide (d.dest = .pong)).length

/-- Commands on their way. -/
structure Cmd (cfg : Cfg) (s : State) : Prop where
  submitted : ∀ i, i < s.nClients → (s.clients i).handled ++ (s.clients i).queue <+: (s.clients i).submitted
  submittedEq : ∀ i, i < s.nClients → ((s.clients i).phase ≠ .gone ∨ s.mode ≠ .stopped) →
    (s.clients i).handled ++ (s.clients i).queue = (s.clients i).submitted
  sentOk : ∀ b c, (b, c) ∈ s.sent → match c.origin with
    | none => c.out = .pong ∧ c.reply = none
    | some (i, cmd) => i < s.nClients ∧ cmd ∈ (s.clients i).handled ∧ Passes cfg cmd.out c.out
  idle : ∀ i, i < s.nClients → i ∉ s.vec → (s.clients i).handled = []
  routed : s.nClients ≤ 2 ^ 64 → ∀ i, i < s.nClients →
    passedOn s.sent i <+: routeAll cfg cfg.config.brokerAddress (s.clients i).handled
  routedEq : s.nClients ≤ 2 ^ 64 → s.mode ≠ .stopped → ∀ i, i < s.nClients →
    passedOn s.sent i = routeAll cfg cfg.config.brokerAddress (s.clients i).handled ∧
    (i ∈ s.vec → (s.clients i).broker = lastHop cfg cfg.config.brokerAddress (s.clients i).handled)
  pongs : ∀ b, pongsTo s.sent b ≤ pingsFrom s.dispatches b
  pongsEq : s.mode ≠ .stopped → ∀ b, pongsTo s.sent b = pingsFrom s.dispatches b

theorem Cmd.init (cfg : Cfg) : Cmd cfg (init cfg) := by
  refine ⟨?_, ?_, ?_, ?_, ?_, ?_, ?_, ?_⟩ <;> simp [Sys.init, pongsTo, pingsFrom]

theorem Cmd.congr {cfg : Cfg} {s s' : State} (h : Cmd cfg s) (hn : s'.nClients = s.nClients) (hs : s'.sent = s.sent)
    (hd : ∀ b, pingsFrom s'.dispatches b = pingsFrom s.dispatches b) (hv : s'.vec = s.vec)
    (h1 : ∀ k, k < s.nClients → (s'.clients k).handled = (s.clients k).handled)
    (h2 : ∀ k, k < s.nClients → (s'.clients k).queue = (s.clients k).queue)
    (h3 : ∀ k, k < s.nClients → (s'.clients k).submitted = (s.clients k).submitted)
    (h4 : ∀ k, k < s.nClients → (s'.clients k).broker = (s.clients k).broker)
    (h5 : ∀ k, k < s.nClients → ((s'.clients k).phase ≠ .gone ∨ s'.mode ≠ .stopped) →
      ((s.clients k).handled ++ (s.clients k).queue = (s.clients k).submitted))
    (hm : s'.mode ≠ .stopped → s.mode ≠ .stopped) : Cmd cfg s' := by
  refine ⟨?_, ?_, ?_, ?_, ?_, ?_, ?_, ?_⟩
  · intro i hi; rw [hn] at hi; rw [h1 i hi, h2 i hi, h3 i hi]; exact h.submitted i hi
  · intro i hi hg; rw [hn] at hi; rw [h1 i hi, h2 i hi, h3 i hi]; exact h5 i hi hg
  · intro b c hm; rw [hs] at hm
    have := h.sentOk b c hm
    cases ho : c.origin with
    | none => simpa [ho] using this
    | some p =>
      simp only [ho, hn] at this ⊢
      exact ⟨this.1, by rw [h1 _ this.1]; exact this.2.1, this.2.2⟩
  · intro i hi hvv; rw [hn] at hi; rw [hv] at hvv; rw [h1 i hi]; exact h.idle i hi hvv
  · intro hb i hi; rw [hn] at hb hi; rw [hs, h1 i hi]; exact h.routed hb i hi
  · intro hb hmm i hi; rw [hn] at hb hi; rw [hs, h1 i hi, hv, h4 i hi]; exact h.routedEq hb (hm hmm) i hi
  · intro b; rw [hs, hd]; exact h.pongs b
  · intro hmm b; rw [hs, hd]; exact h.pongsEq (hm hmm) b

/-- The usual case: nothing but modes, phases, inboxes, … changes. -/
theorem Cmd.same {cfg : Cfg} {s s' : State} (h : Cmd cfg s) (hn : s'.nClients = s.nClients) (hs : s'.sent = s.sent)
    (hd : s'.dispatches = s.dispatches) (hv : s'.vec = s.vec)
    (h1 : ∀ k, k < s.nClients → (s'.clients k).handled = (s.clients k).handled)
    (h2 : ∀ k, k < s.nClients → (s'.clients k).queue = (s.clients k).queue)
    (h3 : ∀ k, k < s.nClients → (s'.clients k).submitted = (s.clients k).submitted)
    (h4 : ∀ k, k < s.nClients → (s'.clients k).broker = (s.clients k).broker)
    (hp : ∀ k, k < s.nClients → (s'.clients k).phase ≠ .gone → (s.clients k).phase ≠ .gone)
    (hm : s'.mode ≠ .stopped → s.mode ≠ .stopped) : Cmd cfg s' :=
  h.congr hn hs (fun b => by rw [hd]) hv h1 h2 h3 h4
    (fun k hk hg => h.submittedEq k hk (hg.elim (fun x => .inl (hp k hk x)) (fun x => .inr (hm x)))) hm

theorem Cmd.stop {cfg : Cfg} {s : State} (h : Cmd cfg s) : Cmd cfg (stop s) := by
  apply h.same <;> simp

theorem pingsFrom_append (l l' : List Dispatch) (b : BrokerAddress) :
    pingsFrom (l ++ l') b = pingsFrom l b + pingsFrom l' b := by
  simp [pingsFrom]

theorem pongsTo_append (l l' : List (BrokerAddress × ConnCmd)) (b : BrokerAddress) :
    pongsTo (l ++ l') b = pongsTo l b + pongsTo l' b := by
  simp [pongsTo]

theorem managerSend_dest (s : State) (e : Event) (b : BrokerAddress) (v : Bool) :
    ∃ dest, (managerSend s e b v).dispatches = s.dispatches ++ [⟨b, e, v, dest⟩] ∧ dest ≠ .pong := by
  unfold managerSend
  split
  · exact ⟨_, rfl, by simp⟩
  · exact ⟨_, rfl, by simp⟩

theorem Cmd.managerSend {cfg : Cfg} {s : State} (h : Cmd cfg s) (e : Event) (b : BrokerAddress) (v : Bool) :
    Cmd cfg (managerSend s e b v) := by
  obtain ⟨dest, hd, hne⟩ := managerSend_dest s e b v
  refine h.congr (by simp) (by simp) (fun x => ?_) (by simp) (by simp) (by simp) (by simp) (by simp) ?_ (by simp)
  · rw [hd, pingsFrom_append]; simp [pingsFrom, hne]
  · intro k hk hg; simp only [managerSend_clients_phase, managerSend_mode] at hg; exact h.submittedEq k hk hg

/-- The client found by its id is the client itself. -/
theorem find_self {s : State} (hw : WF s) (hb : s.nClients ≤ 2 ^ 64) {i j : Nat} (hi : i < s.nClients)
    (hj : s.vec.find? (fun j => decide ((s.clients j).core.clientId = (s.clients i).core.clientId)) = some j) : j = i := by
  have h1 := List.find?_some hj
  have h2 := hw.vecLt j (List.mem_of_find?_eq_some hj)
  simp only [decide_eq_true_eq] at h1
  rw [hw.ids j h2, hw.ids i hi] at h1
  have := congrArg UInt64.toNat h1
  simp only [UInt64.toNat_ofNat'] at this
  rw [Nat.mod_eq_of_lt (by omega), Nat.mod_eq_of_lt (by omega)] at this
  exact this

theorem moveClient_broker {s : State} (hw : WF s) (hb : s.nClients ≤ 2 ^ 64) {i k : Nat} (hi : i < s.nClients)
    (hiv : i ∈ s.vec) (hk : k < s.nClients) (b : BrokerAddress) :
    ((moveClient s (s.clients i).core.clientId b).clients k).broker = if k = i then b else (s.clients k).broker := by
  unfold moveClient
  simp only
  by_cases hki : k = i
  · subst hki; simp [hiv]
  · rw [if_neg hki]
    have : ¬ (k ∈ s.vec ∧ (s.clients k).core.clientId = (s.clients i).core.clientId) := by
      intro ⟨_, h⟩
      rw [hw.ids k hk, hw.ids i hi] at h
      have := congrArg UInt64.toNat h
      simp only [UInt64.toNat_ofNat'] at this
      rw [Nat.mod_eq_of_lt (by omega), Nat.mod_eq_of_lt (by omega)] at this
      exact hki this
    rw [if_neg this]

theorem connectFor_address {cfg : Cfg} {c c2 : Connect} {auth : Outcome Bytes} (h : connectFor cfg c auth = .ok c2) :
    c2.brokerAddress = connectAddress cfg c.brokerAddress := by
  unfold connectFor at h
  split at h
  · split at h
    · simp only [Outcome.ok.injEq] at h; subst h; rfl
    · exact absurd h (by simp)
    · exact absurd h (by simp)
  · simp only [Outcome.ok.injEq] at h; subst h; rfl

theorem Prep.broker {cfg : Cfg} {s s3 : State} {i : Nat} {c c2 : Connect} {b : BrokerAddress} (hp : Prep cfg s i c c2 b s3)
    (hw : WF s) (hb : s.nClients ≤ 2 ^ 64) (hi : i < s.nClients) (hiv : i ∈ s.vec) {k : Nat} (hk : k < s.nClients) :
    (s3.clients k).broker = if k = i ∧ b ≠ cfg.config.brokerAddress then b else (s.clients k).broker := by
  cases hp with
  | intro s2 hd hbb =>
    have hw2 : WF s2 := by
      rcases hd with rfl | ⟨hm, rfl⟩
      · exact hw
      · exact hw.dialed hm
    have e1 : s2.clients = s.clients := by rcases hd with rfl | ⟨_, rfl⟩ <;> rfl
    have e2 : s2.nClients = s.nClients := by rcases hd with rfl | ⟨_, rfl⟩ <;> rfl
    have e3 : s2.vec = s.vec := by rcases hd with rfl | ⟨_, rfl⟩ <;> rfl
    by_cases hne : b ≠ cfg.config.brokerAddress
    · rw [if_pos hne, moveClient_broker hw2 (by omega) (by omega) (by rw [e3]; exact hiv) (by omega), e1]
      simp [hne]
    · rw [if_neg hne, e1, if_neg (by simp [hne])]

/-- Taking a command: everything else stays in order, the client has one more handled command. -/
theorem Cmd.out {cfg : Cfg} {s s' : State} (h : Cmd cfg s) (hw : WF s) {i : Nat} {cmd : ClientCmd} {q : List ClientCmd}
    {auth : Outcome Bytes} (hm : s.mode = .idle) (hv : i ∈ s.vec) (hq : (s.clients i).queue = cmd :: q)
    (he : OutEnd cfg (takeCmd s i cmd q) i cmd auth s') : Cmd cfg s' := by
  have hi : i < s.nClients := hw.vecLt i hv
  have hw1 : WF (takeCmd s i cmd q) := by apply hw.congr <;> simp
  have hh : ∀ k, ((takeCmd s i cmd q).clients k).handled = (s.clients k).handled ++ if k = i then [cmd] else [] := by
    intro k; rw [takeCmd_clients]; split
    · rename_i hk; subst hk; rfl
    · simp
  have hsub : ∀ k, ((takeCmd s i cmd q).clients k).handled ++ ((takeCmd s i cmd q).clients k).queue =
      (s.clients k).handled ++ (s.clients k).queue := by
    intro k; rw [takeCmd_clients]; split
    · rename_i hk; subst hk; simp [hq]
    · rfl
  -- facts that hold however it ends
  have hA : ∀ s'', s''.nClients = s.nClients →
      (∀ k, (s''.clients k).handled = ((takeCmd s i cmd q).clients k).handled) →
      (∀ k, (s''.clients k).queue = ((takeCmd s i cmd q).clients k).queue) →
      (∀ k, (s''.clients k).submitted = (s.clients k).submitted) →
      s''.vec = s.vec → s''.dispatches = s.dispatches →
      (∀ b c, (b, c) ∈ s''.sent → (b, c) ∈ s.sent ∨
        c.origin = some (i, cmd) ∧ Passes cfg cmd.out c.out) →
      (∀ b, pongsTo s''.sent b = pongsTo s.sent b) →
      (s.nClients ≤ 2 ^ 64 → ∀ k, k < s.nClients →
        passedOn s''.sent k <+: routeAll cfg cfg.config.brokerAddress (s''.clients k).handled ∧
        (s''.mode ≠ .stopped → passedOn s''.sent k = routeAll cfg cfg.config.brokerAddress (s''.clients k).handled ∧
          (k ∈ s.vec → (s''.clients k).broker = lastHop cfg cfg.config.brokerAddress (s''.clients k).handled))) →
      Cmd cfg s'' := by
    intro s'' e1 e2 e3 e4 e5 e6 e7 e8 e9
    refine ⟨?_, ?_, ?_, ?_, ?_, ?_, ?_, ?_⟩
    · intro k hk; rw [e1] at hk; rw [e2, e3, e4, hsub]; exact h.submitted k hk
    · intro k hk _; rw [e1] at hk; rw [e2, e3, e4, hsub]; exact h.submittedEq k hk (.inr (by simp [hm]))
    · intro b c hbc
      rcases e7 b c hbc with hbc | ⟨ho, hp⟩
      · have := h.sentOk b c hbc
        cases ho : c.origin with
        | none => simpa [ho] using this
        | some p =>
          simp only [ho, e1] at this ⊢
          refine ⟨this.1, ?_, this.2.2⟩
          rw [e2, hh]; simp [this.2.1]
      · simp only [ho, e1]; exact ⟨hi, by rw [e2, hh]; simp, hp⟩
    · intro k hk hkv
      rw [e1] at hk; rw [e5] at hkv
      have hki : k ≠ i := fun h => hkv (h ▸ hv)
      rw [e2, hh, if_neg hki, h.idle k hk hkv]; rfl
    · intro hb k hk; rw [e1] at hb hk; exact (e9 hb k hk).1
    · intro hb hmm k hk; rw [e1] at hb hk; rw [e5]; exact (e9 hb k hk).2 hmm
    · intro b; rw [e8, e6]; exact h.pongs b
    · intro _ b; rw [e8, e6]; exact h.pongsEq (by simp [hm]) b
  -- prefix part when nothing is sent
  have hB : ∀ (s'' : State), s''.sent = s.sent → (∀ k, (s''.clients k).handled = ((takeCmd s i cmd q).clients k).handled) →
      s''.mode = .stopped → (s.nClients ≤ 2 ^ 64 → ∀ k, k < s.nClients →
        passedOn s''.sent k <+: routeAll cfg cfg.config.brokerAddress (s''.clients k).handled ∧
        (s''.mode ≠ .stopped → passedOn s''.sent k = routeAll cfg cfg.config.brokerAddress (s''.clients k).handled ∧
          (k ∈ s.vec → (s''.clients k).broker = lastHop cfg cfg.config.brokerAddress (s''.clients k).handled))) := by
    intro s'' e1 e2 e3 hb k hk
    refine ⟨?_, fun hx => absurd e3 hx⟩
    rw [e1, e2, hh]
    by_cases hki : k = i
    · rw [if_pos hki, routeAll_append]
      exact (h.routed hb k hk).trans (List.prefix_append ..)
    · rw [if_neg hki, List.append_nil]; exact h.routed hb k hk
  -- when the command is sent to `br`
  have hC : ∀ (s'' : State) (br : BrokerAddress) (c : ConnCmd), s''.sent = s.sent ++ [(br, c)] →
      c.origin = some (i, cmd) → (∀ k, (s''.clients k).handled = ((takeCmd s i cmd q).clients k).handled) →
      (s.nClients ≤ 2 ^ 64 → br = (s''.clients i).broker) →
      (s.nClients ≤ 2 ^ 64 → (s''.clients i).broker = hop cfg (s.clients i).broker cmd.out) →
      (s.nClients ≤ 2 ^ 64 → ∀ k, k < s.nClients → k ≠ i → (s''.clients k).broker = (s.clients k).broker) →
      (s.nClients ≤ 2 ^ 64 → ∀ k, k < s.nClients →
        passedOn s''.sent k <+: routeAll cfg cfg.config.brokerAddress (s''.clients k).handled ∧
        (s''.mode ≠ .stopped → passedOn s''.sent k = routeAll cfg cfg.config.brokerAddress (s''.clients k).handled ∧
          (k ∈ s.vec → (s''.clients k).broker = lastHop cfg cfg.config.brokerAddress (s''.clients k).handled))) := by
    intro s'' br c e1 e2 e3 e4 e5 e6 hb k hk
    have hr := h.routedEq hb (by simp [hm]) k hk
    have main : passedOn s''.sent k = routeAll cfg cfg.config.brokerAddress (s''.clients k).handled ∧
          (k ∈ s.vec → (s''.clients k).broker = lastHop cfg cfg.config.brokerAddress (s''.clients k).handled) := by
      rw [e1, passedOn_append, passedOn_single _ _ _ _ _ e2, e3, hh]
      by_cases hki : k = i
      · subst hki
        rw [if_pos rfl, if_pos rfl, routeAll_append, lastHop_append, hr.1]
        have e : (s''.clients k).broker = hop cfg (lastHop cfg cfg.config.brokerAddress (s.clients k).handled) cmd.out := by
          rw [e5 hb, hr.2 hv]
        refine ⟨?_, fun _ => e⟩
        rw [e4 hb, e]
      · rw [if_neg (Ne.symm hki), if_neg hki, List.append_nil, List.append_nil, e6 hb k hk hki]
        exact hr
    exact ⟨by rw [main.1]; exact List.prefix_refl _, fun _ => main⟩
  cases he with
  | failed =>
    exact hA _ (by simp) (fun k => by simp) (fun k => by simp) (fun k => by simp) (by simp) (by simp)
      (fun b c hbc => .inl (by simpa using hbc)) (fun b => by simp) (hB _ (by simp) (fun k => by simp) (by simp))
  | lost c c2 b s3 hc h2 hb hp =>
    exact hA _ (by simp [hp.nClients]) (fun k => by simp [hp.clients_handled]) (fun k => by simp [hp.clients_queue])
      (fun k => by simp [hp.clients_submitted]) (by simp [hp.vec]) (by simp [hp.dispatches])
      (fun b c hbc => .inl (by simpa [hp.sent] using hbc)) (fun b => by simp [hp.sent])
      (hB _ (by simp [hp.sent]) (fun k => by simp [hp.clients_handled]) (by simp))
  | sent j hn hj ha hl =>
    have hpass : Passes cfg cmd.out cmd.out := by
      unfold Passes; split
      · rename_i c hc; exact absurd hc (hn c)
      · rfl
    have hhop : ∀ cur, hop cfg cur cmd.out = cur := by
      intro cur; unfold hop; split
      · rename_i c hc; exact absurd hc (hn c)
      · rfl
    refine hA _ (by simp) (fun k => by simp) (fun k => by simp) (fun k => by simp) (by simp) (by simp)
      ?_ ?_ (hC _ ((takeCmd s i cmd q).clients j).broker ⟨cmd.out, none, some (i, cmd)⟩ (by simp [Sys.pushed]) rfl (fun k => by simp) ?_ ?_ ?_)
    · intro b c hbc
      simp only [Sys.pushed, takeCmd_sent, List.mem_append, List.mem_singleton, Prod.mk.injEq] at hbc
      rcases hbc with hbc | ⟨rfl, rfl⟩
      · exact .inl hbc
      · exact .inr ⟨rfl, hpass⟩
    · intro b; simp [Sys.pushed, pongsTo_append]; simp [pongsTo]
    · intro hb
      have := find_self hw1 (by simpa using hb) (by simpa using hi) hj
      subst this; simp
    · intro _; simp [hhop]
    · intro _ k _ _; simp
  | connecting c c2 b s3 j hc h2 hb hp hj ha hl =>
    have hw3 : WF s3 := hw1.prep hp
    have hadr : connectAddress cfg c.brokerAddress = some b := by rw [← connectFor_address h2]; exact hb
    have hbr : s.nClients ≤ 2 ^ 64 → ∀ k, k < s.nClients → (s3.clients k).broker =
        if k = i ∧ b ≠ cfg.config.brokerAddress then b else (s.clients k).broker := by
      intro hle k hk
      rw [hp.broker hw1 (by simpa using hle) (by simpa using hi) (by simpa using hv) (by simpa using hk)]; simp
    refine hA _ (by simp [hp.nClients]) (fun k => by simp [hp.clients_handled]) (fun k => by simp [hp.clients_queue])
      (fun k => by simp [hp.clients_submitted]) (by simp [hp.vec]) (by simp [hp.dispatches])
      ?_ ?_ (hC _ (s3.clients j).broker ⟨.connect c2, some s3.nextReply, some (i, cmd)⟩ (by simp [Sys.pushed, hp.sent]) rfl (fun k => by simp [hp.clients_handled]) ?_ ?_ ?_)
    · intro b' c' hbc
      simp only [Sys.pushed, hp.sent, takeCmd_sent, List.mem_append, List.mem_singleton, Prod.mk.injEq] at hbc
      rcases hbc with hbc | ⟨rfl, rfl⟩
      · exact .inl hbc
      · refine .inr ⟨rfl, ?_⟩
        rw [hc]; exact ⟨auth, c2, h2, rfl⟩
    · intro b'; simp [Sys.pushed, hp.sent, pongsTo_append]; simp [pongsTo]
    · intro hle
      have := find_self hw3 (by simpa [hp.nClients] using hle) (by simpa [hp.nClients] using hi) hj
      subst this; simp
    · intro hle
      simp only [pushed_clients]
      rw [hbr hle i hi, hc]
      simp only [hop, hadr, true_and]
      by_cases hbc : b = cfg.config.brokerAddress <;> simp [hbc]
    · intro hle k hk hki
      simp only [pushed_clients]
      rw [hbr hle k hk]; simp [hki]

/-- Calls in progress are calls of usable clients. -/
def Quiet (s : State) : Prop := ∀ i, i < s.nClients → (s.clients i).phase ≠ .ready → (s.clients i).starting = []

theorem Quiet.congr {s s' : State} (h : Quiet s) (hn : s'.nClients = s.nClients)
    (h1 : ∀ k, (s'.clients k).phase = (s.clients k).phase) (h2 : ∀ k, (s'.clients k).starting = (s.clients k).starting) :
    Quiet s' := fun i hi hp => by rw [h2]; exact h i (hn ▸ hi) (h1 i ▸ hp)

theorem Quiet.step {cfg : Cfg} {s s' : State} {a : Act} (h : Quiet s)
    (hs : step cfg s a = some s') : Quiet s' := by
  have hst := step_cases hs
  clear hs
  cases hst with
  | startOk net hm s2 h2 =>
    rcases h2 with ⟨rfl, hb⟩ | ⟨hb, rfl⟩ <;> (apply h.congr <;> simp)
  | startFail | outGone | inLost | regClosedStop | noConn | connectLost => exact h
  | out i auth net cmd q s' hm hv ha hq he =>
    have h1 : Quiet (takeCmd s i cmd q) := by
      apply h.congr
      · simp
      all_goals (intro k; rw [takeCmd_clients]; split <;> simp_all)
    cases he with
    | failed => exact h1
    | lost c c2 b s3 hc h2 hb hp =>
      exact h1.congr (by simp [hp.nClients]) (fun k => by simp [hp.clients_phase]) (fun k => by simp [hp.clients_starting])
    | sent j hn hj ha hl => exact h1
    | connecting c c2 b s3 j hc h2 hb hp hj ha hl =>
      exact h1.congr (by simp [hp.nClients]) (fun k => by simp [hp.clients_phase]) (fun k => by simp [hp.clients_starting])
  | inb b e q s' hm ha hv hq he =>
    cases he with
    | pingFailed => exact h
    | ping => exact h
    | other _ => apply h.congr <;> simp
  | connectOk r b x e hm hf => apply h.congr <;> simp
  | reg i q hm hc hq hl | regFail i q hm hc hq hl =>
    refine h.congr rfl ?_ ?_ <;> (intro k; simp only [stop_clients, setClient_clients]; split <;> simp_all)
  | regClosed | readSkip => exact h
  | cmdEnd b w hl ha hq hm | cmdOk b c q hl ha hq | cmdFail b c q hl ha hq | cmdPanic b c q hl ha hq | readEnd b x hl ha hx
  | readConnected b v t inb r res hl ha hv hr | readForward b v t inb hl ha hv hr hm | dropManager hl _ =>
    apply h.congr <;> simp
  | newClient name hl =>
    intro k hk hp
    simp only [setClient_clients] at hk hp ⊢
    split
    · rfl
    · rename_i hkn; rw [if_neg hkn] at hp; exact h k (by omega) hp
  | sendRegFail i hl hi hp hm | sendReg i hl hi hp hm | recvReply i hl hi hp hr | recvReplyFail i hl hi hp hr hm
  | clientNext i e q hi hp hq | dropClient i hi hp hst | request i call hi hp hr | oneway i call hi hp hr
  | refuse i k cmd hi hk he | submit i k cmd hi hk he | freeQueue i hi hp he =>
    intro k hk hpk
    have := h k hk
    simp only [setClient_clients] at hpk ⊢
    split
    · rename_i hki; subst hki; simp_all
    · rename_i hki; rw [if_neg hki] at hpk; exact this hpk

  | cancelReg i hi hp =>
    intro k hk hpk
    have := h k hk
    simp only [setClient_clients] at hpk ⊢
    split
    · rename_i hki; subst hki; rcases hp with hp | hp <;> exact this (by simp [hp])
    · rename_i hki; rw [if_neg hki] at hpk; exact this hpk

theorem quiet {cfg : Cfg} {s : State} (h : Reachable cfg s) : Quiet s :=
  h.induct (fun i hi => absurd hi (Nat.not_lt_zero i)) fun _ _ _ _ hp hs => Quiet.step hp hs

theorem Cmd.step {cfg : Cfg} {s s' : State} {a : Act} (hw : WF s) (hqt : Quiet s) (h : Cmd cfg s)
    (hs : step cfg s a = some s') : Cmd cfg s' := by
  have hst := step_cases hs
  clear hs
  cases hst with
  | startOk net hm s2 h2 =>
    rcases h2 with ⟨rfl, hb⟩ | ⟨hb, rfl⟩ <;> (apply h.same <;> simp [hm])
  | startFail | outGone | inLost | regClosedStop | noConn | connectLost => exact h.stop
  | out i auth net cmd q s' hm hv ha hq he => exact h.out hw hm hv hq he
  | inb b e q s' hm ha hv hq he =>
    have h1 : Cmd cfg (takeEvent s b e q) := by apply h.same <;> simp
    cases he with
    | pingFailed hping =>
      refine ⟨h1.submitted, fun i hi hg => h1.submittedEq i hi (.inr (by simp [hm])), h1.sentOk, h1.idle, h1.routed,
        fun _ hx => absurd rfl hx, fun x => ?_, fun hx => absurd rfl hx⟩
      simp only [stop_dispatches, stop_sent, pingsFrom_append]
      exact Nat.le_trans (h1.pongs x) (Nat.le_add_right ..)
    | ping hping _ _ =>
      have hp0 : ∀ x, pongsTo (s.sent ++ [(b, ⟨.pong, none, none⟩)]) x = pongsTo s.sent x + if b = x then 1 else 0 := by
        intro x; rw [pongsTo_append]; congr 1
        by_cases hx : b = x <;> simp [pongsTo, hx]
      have hd0 : ∀ x, pingsFrom (s.dispatches ++ [⟨b, e, false, .pong⟩]) x = pingsFrom s.dispatches x + if b = x then 1 else 0 := by
        intro x; rw [pingsFrom_append]; congr 1
        by_cases hx : b = x <;> simp [pingsFrom, hx]
      have hpo : ∀ k, passedOn (s.sent ++ [(b, ⟨.pong, none, none⟩)]) k = passedOn s.sent k := by
        intro k; rw [passedOn_append, passedOn_pong _ _ _ rfl, List.append_nil]
      refine ⟨by simpa using h.submitted, by simpa using h.submittedEq, ?_, by simpa using h.idle, ?_, ?_, ?_, ?_⟩
      · intro b' c hbc
        simp only [Sys.pushed, takeEvent_sent, List.mem_append, List.mem_singleton, Prod.mk.injEq] at hbc
        rcases hbc with hbc | ⟨rfl, rfl⟩
        · simpa using h.sentOk b' c hbc
        · exact ⟨rfl, rfl⟩
      · intro hb i hi; simp only [Sys.pushed, takeEvent_sent, hpo]; exact h.routed hb i hi
      · intro hb hmm i hi; simp only [Sys.pushed, takeEvent_sent, hpo]; exact h.routedEq hb hmm i hi
      · intro x; simp only [Sys.pushed, takeEvent_sent, setConn_dispatches, takeEvent_dispatches, hp0, hd0]
        exact Nat.add_le_add_right (h.pongs x) _
      · intro hmm x; simp only [Sys.pushed, takeEvent_sent, setConn_dispatches, takeEvent_dispatches, hp0, hd0]
        rw [h.pongsEq hmm x]
    | other _ => exact h1.managerSend _ _ _
  | reg i q hm hc hq hl =>
    have hiv : i ∉ s.vec := by
      have := hw.nodup; rw [hq] at this
      intro hin; exact (List.nodup_append.mp this).2.2 i hin i (by simp) rfl
    have hi : i < s.nClients := hw.regLt i (by rw [hq]; simp)
    refine ⟨?_, ?_, ?_, ?_, ?_, ?_, h.pongs, h.pongsEq⟩
    · intro k hk; have := h.submitted k hk; simp only [setClient_clients]; split <;> simp_all
    · intro k hk hg
      have := h.submittedEq k hk (.inr (by simp [hm]))
      simp only [setClient_clients]; split <;> simp_all
    · intro b c hbc
      have := h.sentOk b c hbc
      cases ho : c.origin with
      | none => simpa [ho] using this
      | some p =>
        simp only [ho] at this ⊢
        refine ⟨this.1, ?_, this.2.2⟩
        simp only [setClient_clients]; split
        · rename_i hp; rw [hp] at this; exact this.2.1
        · exact this.2.1
    · intro k hk hkv
      simp only [List.mem_append, not_or, setClient_vec] at hkv
      have := h.idle k hk hkv.1
      simp only [setClient_clients]; split <;> simp_all
    · intro hb k hk
      have := h.routed hb k hk
      simp only [setClient_clients]; split <;> simp_all
    · intro hb hmm k hk
      have := h.routedEq hb (by simp [hm]) k hk
      simp only [setClient_clients]
      split
      · rename_i hki; subst hki
        refine ⟨this.1, fun _ => ?_⟩
        simp [h.idle k hk hiv, lastHop]
      · rename_i hki
        refine ⟨this.1, fun hkv => ?_⟩
        simp only [setClient_vec, List.mem_append, List.mem_singleton] at hkv
        exact this.2 (hkv.resolve_right hki)
  | regFail i q hm hc hq hl =>
    have hi : i < s.nClients := hw.regLt i (by rw [hq]; simp)
    refine ⟨?_, ?_, ?_, ?_, ?_, fun _ hx => absurd rfl hx, h.pongs, fun hx => absurd rfl hx⟩
    · intro k hk; have := h.submitted k hk; simp only [stop_clients, setClient_clients]; split <;> simp_all
    · intro k hk hg
      have := h.submittedEq k hk (.inr (by simp [hm]))
      simp only [stop_clients, setClient_clients]; split <;> simp_all
    · intro b c hbc
      have := h.sentOk b c hbc
      cases ho : c.origin with
      | none => simpa [ho] using this
      | some p =>
        simp only [ho] at this ⊢
        refine ⟨this.1, ?_, this.2.2⟩
        simp only [stop_clients, setClient_clients]; split
        · rename_i hp; rw [hp] at this; exact this.2.1
        · exact this.2.1
    · intro k hk hkv
      simp only [stop_vec, List.mem_append, not_or, setClient_vec] at hkv
      have := h.idle k hk hkv.1
      simp only [stop_clients, setClient_clients]; split <;> simp_all
    · intro hb k hk
      have := h.routed hb k hk
      simp only [stop_clients, stop_sent, setClient_clients]; split <;> simp_all
  | regClosed hm hq hl hv ha => exact h
  | connectOk r b x e hm hf =>
    have h1 : Cmd cfg { s with mode := .idle } := by apply h.same <;> simp [hm]
    exact h1.managerSend _ _ _
  | cmdEnd b w hl ha hq hm => apply h.same <;> simp
  | cmdOk b c q hl ha hq => apply h.same <;> simp
  | cmdFail b c q hl ha hq => apply h.same <;> simp
  | cmdPanic b c q hl ha hq => apply h.same <;> simp
  | readEnd b x hl ha hx => apply h.same <;> simp
  | readSkip b x hl ha hx => exact h
  | readConnected b v t inb r res hl ha hv hr => apply h.same <;> simp
  | readForward b v t inb hl ha hv hr hm => apply h.same <;> simp
  | newClient name hl =>
    have hpo : passedOn s.sent s.nClients = [] := by
      unfold passedOn
      rw [List.filterMap_eq_nil_iff]
      intro p hp
      have := h.sentOk p.1 p.2 hp
      cases ho : p.2.origin with
      | none => rfl
      | some o =>
        simp only [ho] at this ⊢
        rw [if_neg (by omega)]
    have hlt : ∀ k, k < s.nClients + 1 → k ≠ s.nClients → k < s.nClients := fun k h1 h2 => by omega
    refine ⟨?_, ?_, ?_, ?_, ?_, ?_, h.pongs, h.pongsEq⟩
    · intro k hk; simp only [setClient_clients]; split
      · simp
      · rename_i hkn; exact h.submitted k (hlt k hk hkn)
    · intro k hk; simp only [setClient_clients]; split
      · simp
      · rename_i hkn; exact h.submittedEq k (hlt k hk hkn)
    · intro b c hbc
      have := h.sentOk b c hbc
      cases ho : c.origin with
      | none => simpa [ho] using this
      | some p =>
        simp only [ho] at this ⊢
        refine ⟨by omega, ?_, this.2.2⟩
        simp only [setClient_clients]; rw [if_neg (by omega)]; exact this.2.1
    · intro k hk hkv; simp only [setClient_clients]; split
      · simp
      · rename_i hkn; exact h.idle k (hlt k hk hkn) hkv
    · intro hb k hk; simp only [setClient_clients]; split
      · rename_i hkn; rw [hkn]
        simp only [setClient_sent]; rw [hpo]; simp
      · rename_i hkn; exact h.routed (by simp only at hb; omega) k (hlt k hk hkn)
    · intro hb hmm k hk; simp only [setClient_clients]; split
      · rename_i hkn; rw [hkn]
        simp only [setClient_sent]; rw [hpo]; simp [routeAll, lastHop]
      · rename_i hkn; exact h.routedEq (by simp only at hb; omega) hmm k (hlt k hk hkn)
  | sendRegFail i hl hi hp hm | sendReg i hl hi hp hm | recvReply i hl hi hp hr | recvReplyFail i hl hi hp hr hm
  | cancelReg i hi hp | clientNext i e q hi hp hq | dropClient i hi hp hst | request i call hi hp hr | oneway i call hi hp hr =>
    apply h.same <;> first | rfl | (simp; done) | (intro k _; simp only [setClient_clients]; split <;> simp_all)
  | refuse i k cmd hi hk he =>
    apply h.same <;> first | rfl | (simp; done) | (intro k _; simp only [setClient_clients]; split <;> simp_all)
  | submit i k cmd hi hk he =>
    refine ⟨?_, ?_, ?_, ?_, ?_, ?_, h.pongs, h.pongsEq⟩
    · intro j hj; simp only [setClient_clients]; split
      · rename_i hji; subst hji
        have := h.submitted j hj
        by_cases hg : (s.clients j).phase ≠ .gone ∨ s.mode ≠ .stopped
        · rw [← h.submittedEq j hj hg]; simp
        · have hns : ¬ s.mode ≠ .stopped := fun h => hg (.inr h)
          have hng : (s.clients j).phase = .gone := Classical.not_not.mp fun h => hg (.inl h)
          rw [hqt j hj (by simp [hng])] at hk
          simp at hk
      · exact h.submitted j hj
    · intro j hj hg; simp only [setClient_clients]; split
      · rename_i hji; subst hji
        have := h.submittedEq j hj (by simpa [setClient_clients] using hg)
        simp [← this]
      · rename_i hji; exact h.submittedEq j hj (by simpa [setClient_clients, hji] using hg)
    · intro b c hbc
      have := h.sentOk b c hbc
      cases ho : c.origin with
      | none => simpa [ho] using this
      | some p =>
        simp only [ho] at this ⊢
        refine ⟨this.1, ?_, this.2.2⟩
        simp only [setClient_clients]; split
        · rename_i hp; rw [hp] at this; exact this.2.1
        · exact this.2.1
    · intro j hj hkv; simp only [setClient_clients]; split
      · rename_i hji; subst hji; exact h.idle j hj hkv
      · exact h.idle j hj hkv
    · intro hb j hj; simp only [setClient_clients]; split
      · rename_i hji; subst hji; exact h.routed hb j hj
      · exact h.routed hb j hj
    · intro hb hmm j hj; simp only [setClient_clients]; split
      · rename_i hji; subst hji; exact h.routedEq hb hmm j hj
      · exact h.routedEq hb hmm j hj
  | freeQueue i hi hp he =>
    have hstop : s.mode = .stopped := by
      unfold engineEnd at he; split at he
      · assumption
      · exact absurd he (by simp)
    refine ⟨?_, ?_, ?_, ?_, ?_, fun _ hx => absurd hstop hx, h.pongs, fun hx => absurd hstop hx⟩
    · intro j hj; simp only [setClient_clients]; split
      · rename_i hji; subst hji
        simp only [List.append_nil]
        exact (List.prefix_append _ _).trans (h.submitted j hj)
      · exact h.submitted j hj
    · intro j hj hg
      rcases hg with hg | hg
      · simp only [setClient_clients] at hg ⊢; split at hg
        · exact absurd hp hg
        · rename_i hji; rw [if_neg hji]; exact h.submittedEq j hj (.inl hg)
      · exact absurd hstop hg
    · intro b c hbc
      have := h.sentOk b c hbc
      cases ho : c.origin with
      | none => simpa [ho] using this
      | some p =>
        simp only [ho] at this ⊢
        refine ⟨this.1, ?_, this.2.2⟩
        simp only [setClient_clients]; split
        · rename_i hp; rw [hp] at this; exact this.2.1
        · exact this.2.1
    · intro j hj hkv; simp only [setClient_clients]; split
      · rename_i hji; subst hji; exact h.idle j hj hkv
      · exact h.idle j hj hkv
    · intro hb j hj; simp only [setClient_clients]; split
      · rename_i hji; subst hji; exact h.routed hb j hj
      · exact h.routed hb j hj
  | dropManager hl _ => apply h.same <;> simp

theorem cmd {cfg : Cfg} {s : State} (h : Reachable cfg s) : Cmd cfg s :=
  h.induct (Cmd.init cfg) fun _ _ _ hr hp hs => Cmd.step (wf hr) (quiet hr) hp hs

end Neutron.Sys
