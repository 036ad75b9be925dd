import Verif.Props.Session
import Verif.Props.Shutdown
import Verif.Props.Concurrent

/-!
# Results of public calls in the running system: C38/C81, C39/C82, C45, C46/C86, C47/C87
-/

namespace Neutron.Props

open Neutron Neutron.Prog Neutron.Session Neutron.Sys Neutron.Trace

/-! ## C40, continued: concrete cases -/

/-- The responses of a proxied handshake. -/
def proxiedHandshake (final : Call) (r : Response) (second : LookupResponseType) : List Ev :=
  [.handed .connect (.ok 0), .waited 0 .connect (.ok .connected),
   .handed (.lookupTopic "t") (.ok 1), .waited 1 (.lookupTopic "t") (.ok (.lookup ⟨0, "pulsar://z:1", "", .connect, false, true⟩)),
   .handed (.connectToProxy "pulsar://z:1") (.ok 2), .waited 2 (.connectToProxy "pulsar://z:1") (.ok .connected),
   .handed (.lookupTopic "t") (.ok 3),
   .waited 3 (.lookupTopic "t") (.ok (.lookup ⟨1, "pulsar://z:1", "", second, false, false⟩)),
   .handed final (.ok 4), .waited 4 final (.ok r)]

theorem runs_proxiedHandshake (second : LookupResponseType) :
    Runs (producerConnect "t") (proxiedHandshake (.producer "t") (.producerSuccess ⟨2, "p"⟩) second) (.ok ()) :=
  .hand _ _ _ _ _ (.handed _ 0) <| .wait _ _ _ _ _ _ (.waited 0 _ (some .connected)) <|
  .hand _ _ _ _ _ (.handed _ 1) <| .wait _ _ _ _ _ _ (.waited 1 _ (some (.lookupTopicResponse ⟨0, "pulsar://z:1", "", .connect, false, true⟩))) <|
  .hand _ _ _ _ _ (.handed _ 2) <| .wait _ _ _ _ _ _ (.waited 2 _ (some .connected)) <|
  .hand _ _ _ _ _ (.handed _ 3) <| .wait _ _ _ _ _ _ (.waited 3 _ (some (.lookupTopicResponse ⟨1, "pulsar://z:1", "", second, false, false⟩))) <|
  .hand _ _ _ _ _ (.handed _ 4) <| .wait _ _ _ _ _ _ (.waited 4 _ (some (.producerSuccess ⟨2, "p"⟩))) <| .ret _

/-- Non-vacuity of C40: the whole proxied script is possible. -/
example : calls (proxiedHandshake (.producer "t") (.producerSuccess ⟨2, "p"⟩) .connect) =
    producerScript "t" (some "pulsar://z:1") := rfl

/-- Non-vacuity of C40: a consumer whose subscription is cut off; nothing follows. -/
example : Runs (consumerConnect "t" "s" 250)
    [.handed .connect (.ok 0), .waited 0 .connect (.ok .connected),
     .handed (.lookupTopic "t") (.ok 1), .waited 1 (.lookupTopic "t") (.ok (.lookup ⟨0, "pulsar://a:6650", "", .connect, false, false⟩)),
     .handed (.subscribe "t" "s") (.ok 2), .waited 2 (.subscribe "t" "s") (.err .channelTerminated)] (.err .channelTerminated) :=
  .hand _ _ _ _ _ (.handed _ 0) <| .wait _ _ _ _ _ _ (.waited 0 _ (some .connected)) <|
  .hand _ _ _ _ _ (.handed _ 1) <| .wait _ _ _ _ _ _ (.waited 1 _ (some (.lookupTopicResponse ⟨0, "pulsar://a:6650", "", .connect, false, false⟩))) <|
  .hand _ _ _ _ _ (.handed _ 2) <| .wait _ _ _ _ _ _ (.waited 2 _ none) <| .ret _

/-! ## C38/C81 -/

/-- Everything the engine passed on for a client went along the route of its commands. -/
theorem passedOn_route {cfg : Cfg} {s : State} (h : Reachable cfg s) (hn : s.nClients ≤ 2 ^ 64) {i : Nat} (hi : i < s.nClients)
    {b : BrokerAddress} {cm : ClientCmd} (hb : (b, cm) ∈ passedOn s.sent i) :
    (b, cm) ∈ routeAll cfg cfg.config.brokerAddress (s.clients i).submitted := by
  have h1 := ((cmd h).routed hn i hi).subset hb
  obtain ⟨q, hq⟩ := (List.prefix_append _ _).trans ((cmd h).submitted i hi)
  rw [← hq]
  have : ∀ (cur : BrokerAddress) (x y : List ClientCmd), routeAll cfg cur x <+: routeAll cfg cur (x ++ y) := by
    intro cur x
    induction x generalizing cur with
    | nil => intro y; exact List.nil_prefix
    | cons a x ih =>
      intro y
      simp only [List.cons_append, routeAll]
      exact List.cons_prefix_cons.mpr ⟨rfl, ih _ y⟩
  exact (this _ _ q).subset h1

theorem follows_calls {cs : List Call} {tr : List Ev} (h : Follows cs tr) : calls tr <+: cs := by
  induction h with
  | stop cs => exact List.nil_prefix
  | done c cs t r tr h ih => exact List.cons_prefix_cons.mpr ⟨rfl, ih⟩
  | _ => exact List.cons_prefix_cons.mpr ⟨rfl, List.nil_prefix⟩

/-- The command that registers the client with the topic: producer or subscribe. -/
def Registers : Outbound → Prop
  | .producer _ => True
  | .subscribe _ => True
  | _ => False

/-- The configured broker, or the one behind the proxy. -/
def destination (cfg : Cfg) : Option String → BrokerAddress
  | some p => proxied cfg p
  | none => cfg.config.brokerAddress

/-- Which broker the registration goes to, by what the first lookup said. -/
theorem route_script {cfg : Cfg} {l : List ClientCmd} {core : Client} {cs rest : List Call} {topic : String} {tgt : Option String}
    {final : Call} (hl : l.map (·.out) = issueAll core cs) (hcs : cs <+: resolveScript topic tgt ++ final :: rest)
    (hfin : ∀ core : Client, hop cfg (destination cfg tgt) (core.issue final).2 = destination cfg tgt)
    (hrest : rest = [] ∨ ∃ n, rest = [.flow n])
    {b : BrokerAddress} {cm : ClientCmd} (hb : (b, cm) ∈ routeAll cfg cfg.config.brokerAddress l) (hr : Registers cm.out) :
    b = destination cfg tgt := by
  have hgen : ∀ (cs : List Call) (l : List ClientCmd) (core : Client) (cur : BrokerAddress), l.map (·.out) = issueAll core cs →
      (∀ c, c ∈ cs → ∀ core : Client, hop cfg cur (core.issue c).2 = cur) → ∀ p, p ∈ routeAll cfg cur l → p.1 = cur := by
    intro cs
    induction cs with
    | nil => intro l core cur hl _ p hp; simp only [issueAll, List.map_eq_nil_iff] at hl; subst hl; simp [routeAll] at hp
    | cons c cs ih =>
      intro l core cur hl hh p hp
      cases l with
      | nil => simp [routeAll] at hp
      | cons x l =>
        simp only [List.map_cons, issueAll, List.cons.injEq] at hl
        have e : hop cfg cur x.out = cur := by rw [hl.1]; exact hh c (by simp) core
        simp only [routeAll, e, List.mem_cons] at hp
        rcases hp with rfl | hp
        · rfl
        · exact ih l _ cur hl.2 (fun c hc => hh c (List.mem_cons_of_mem _ hc)) p hp
  have hhopc : ∀ core : Client, ∀ cur, hop cfg cur (core.issue .connect).2 = cur := by
    intro core cur; simp [Client.issue, hop, connectAddress]
  have hhopl : ∀ core : Client, ∀ cur t, hop cfg cur (core.issue (.lookupTopic t)).2 = cur := by
    intro core cur t; simp [Client.issue, hop]
  have hhopf : ∀ core : Client, ∀ cur t, hop cfg cur (core.issue (.flow t)).2 = cur := by
    intro core cur t; simp [Client.issue, hop]
  have hhopp : ∀ core : Client, ∀ cur p, hop cfg cur (core.issue (.connectToProxy p)).2 = proxied cfg p := by
    intro core cur p
    simp [Client.issue, hop, connectAddress, proxied, PulsarConfig.brokerAddress]
  cases tgt with
  | none =>
    refine hgen cs l core _ hl ?_ _ hb
    intro c hc core
    have := hcs.subset hc
    simp only [resolveScript, List.append_nil, List.cons_append, List.nil_append, List.mem_cons] at this
    rcases this with rfl | rfl | rfl | hx
    · exact hhopc _ _
    · exact hhopl _ _ _
    · exact hfin _
    · rcases hrest with rfl | ⟨n, rfl⟩
      · simp at hx
      · simp only [List.mem_singleton] at hx; subst hx; exact hhopf _ _ _
  | some p =>
    -- the first two commands stay on the configured broker but do not register
    cases cs with
    | nil => simp only [issueAll, List.map_eq_nil_iff] at hl; subst hl; simp [routeAll] at hb
    | cons c1 cs =>
    cases l with
    | nil => simp [routeAll] at hb
    | cons x1 l =>
    simp only [resolveScript, List.cons_append, List.nil_append, List.cons_prefix_cons] at hcs
    obtain ⟨rfl, hcs⟩ := hcs
    simp only [List.map_cons, issueAll, List.cons.injEq] at hl
    obtain ⟨e1, hl⟩ := hl
    simp only [routeAll, e1, hhopc, List.mem_cons] at hb
    rcases hb with hb | hb
    · cases hb; rw [e1] at hr; exact absurd hr (by simp [Client.issue, Registers])
    cases cs with
    | nil => simp only [issueAll, List.map_eq_nil_iff] at hl; subst hl; simp [routeAll] at hb
    | cons c2 cs =>
    cases l with
    | nil => simp [routeAll] at hb
    | cons x2 l =>
    rw [List.cons_prefix_cons] at hcs
    obtain ⟨rfl, hcs⟩ := hcs
    simp only [List.map_cons, issueAll, List.cons.injEq] at hl
    obtain ⟨e2, hl⟩ := hl
    simp only [routeAll, e2, hhopl, List.mem_cons] at hb
    rcases hb with hb | hb
    · cases hb; rw [e2] at hr; exact absurd hr (by simp [Client.issue, Registers])
    cases cs with
    | nil => simp only [issueAll, List.map_eq_nil_iff] at hl; subst hl; simp [routeAll] at hb
    | cons c3 cs =>
    cases l with
    | nil => simp [routeAll] at hb
    | cons x3 l =>
    rw [List.cons_prefix_cons] at hcs
    obtain ⟨rfl, hcs⟩ := hcs
    simp only [List.map_cons, issueAll, List.cons.injEq] at hl
    obtain ⟨e3, hl⟩ := hl
    simp only [routeAll, e3, hhopp, List.mem_cons] at hb
    rcases hb with hb | hb
    · cases hb; rfl
    refine hgen cs l _ _ hl ?_ _ hb
    intro c hc core
    have := hcs.subset hc
    simp only [List.mem_cons] at this
    rcases this with rfl | rfl | hx
    · exact hhopl _ _ _
    · exact hfin _
    · rcases hrest with rfl | ⟨n, rfl⟩
      · simp at hx
      · simp only [List.mem_singleton] at hx; subst hx; exact hhopf _ _ _

/-- Creating a producer: its registration goes to the broker the first lookup names if the answer asks for the proxy, and to the
configured broker otherwise.  So a lookup is honoured if it is proxied, or names the configured broker. -/
theorem C81_producer {cfg : Cfg} {s : State} (h : Reachable cfg s) (hn : s.nClients ≤ 2 ^ 64) {i : Nat} (hi : i < s.nClients)
    {topic : String} {tr : List Ev} (hst : Steps (producerConnect topic) tr) (hsub : Submitted s i (calls tr))
    {l : LookupTopicResponse} (hl : (lookups tr).head? = some l) {b : BrokerAddress} {cm : ClientCmd}
    (hb : (b, cm) ∈ passedOn s.sent i) (hr : Registers cm.out) :
    b = if l.proxy then proxied cfg l.brokerServiceUrl else cfg.config.brokerAddress := by
  obtain ⟨core, hsub⟩ := hsub
  have ht : target tr = if l.proxy then some l.brokerServiceUrl else none := by unfold target; rw [hl]
  have h1 := route_script (cfg := cfg) hsub (follows_calls (C40_producer_order hst)) (fun core => by simp [Client.issue, hop])
    (.inl rfl) (passedOn_route h hn hi hb) hr
  rw [ht] at h1
  cases hp : l.proxy <;> simpa [hp, destination] using h1

/-- The same for a consumer and its subscription. -/
theorem C81_consumer {cfg : Cfg} {s : State} (h : Reachable cfg s) (hn : s.nClients ≤ 2 ^ 64) {i : Nat} (hi : i < s.nClients)
    {topic subscription : String} {permits : UInt32} {tr : List Ev} (hst : Steps (consumerConnect topic subscription permits) tr)
    (hsub : Submitted s i (calls tr)) {l : LookupTopicResponse} (hl : (lookups tr).head? = some l) {b : BrokerAddress}
    {cm : ClientCmd} (hb : (b, cm) ∈ passedOn s.sent i) (hr : Registers cm.out) :
    b = if l.proxy then proxied cfg l.brokerServiceUrl else cfg.config.brokerAddress := by
  obtain ⟨core, hsub⟩ := hsub
  have ht : target tr = if l.proxy then some l.brokerServiceUrl else none := by unfold target; rw [hl]
  have h1 := route_script (cfg := cfg) hsub (follows_calls (C40_consumer_order hst)) (fun core => by simp [Client.issue, hop])
    (.inr ⟨_, rfl⟩) (passedOn_route h hn hi hb) hr
  rw [ht] at h1
  cases hp : l.proxy <;> simpa [hp, destination] using h1

/-- The claim is false: a lookup answered with another broker's address and no proxy flag is ignored, and the producer registers
with the configured broker. -/
theorem C38_refuted : ∃ s tr l cm, Reachable cfg0 s ∧ s.nClients = 1 ∧ Runs (producerConnect "t") tr (.ok ()) ∧
    (∀ ev, ev ∈ tr → Fits s 0 ev) ∧ lookups tr = [l] ∧ l.responseType = .connect ∧ l.brokerServiceUrl = "pulsar://z:1" ∧
    l.brokerServiceUrl ≠ b0.display ∧ s.dials = [b0] ∧ Registers cm.out ∧ cm ∈ (s.clients 0).submitted ∧
    (passedOn s.sent 0).getLast? = some (b0, cm) := by
  obtain ⟨s, hr, ho⟩ := reachable_obs
    (f := fun s => (s.outcomes, s.issued, s.nClients, s.dials, (passedOn s.sent 0).getLast?, (s.clients 0).submitted.getLast?))
    (as := boot ++ join 0 ++ shakeHands 0 0 ++ askW 0 (.lookupTopic "t") ++ say b0 (lookupC 0 "pulsar://z:1" 1 false) (some 1) ++
      askW 0 (.producer "t") ++ say b0 (producerSuccessC 1) (some 2))
    (x := ([(0, .resolved ⟨.connected, some 0⟩),
            (1, .resolved ⟨.lookupTopicResponse ⟨0, "pulsar://z:1", "", .connect, false, false⟩, some 1⟩),
            (2, .resolved ⟨.producerSuccess ⟨1, "p"⟩, some 2⟩)],
           [(0, .connect ⟨none, none, none⟩), (0, .lookupTopic ⟨0, "t"⟩), (0, .producer ⟨"t", 0, 1, some "c"⟩)], 1, [b0],
           some (b0, ⟨.producer ⟨"t", 0, 1, some "c"⟩, some 2⟩), some ⟨.producer ⟨"t", 0, 1, some "c"⟩, some 2⟩)) (by rfl)
  simp only [Prod.mk.injEq] at ho
  obtain ⟨ho1, ho2, ho3, ho4, ho5, ho6⟩ := ho
  refine ⟨s, _, ⟨0, "pulsar://z:1", "", .connect, false, false⟩, ⟨.producer ⟨"t", 0, 1, some "c"⟩, some 2⟩, ⟨_, hr⟩, ho3,
    .hand _ _ _ _ _ (.handed _ 0) <| .wait _ _ _ _ _ _ (.waited 0 _ (some .connected)) <|
    .hand _ _ _ _ _ (.handed _ 1) <| .wait _ _ _ _ _ _ (.waited 1 _ (some (.lookupTopicResponse ⟨0, "pulsar://z:1", "", .connect, false, false⟩))) <|
    .hand _ _ _ _ _ (.handed _ 2) <| .wait _ _ _ _ _ _ (.waited 2 _ (some (.producerSuccess ⟨1, "p"⟩))) <| .ret _,
    ?_, rfl, rfl, rfl, by decide, ho4, trivial, List.mem_of_getLast? ho6, ho5⟩
  intro ev hev
  simp only [List.mem_cons, List.not_mem_nil, or_false] at hev
  rcases hev with rfl | rfl | rfl | rfl | rfl | rfl
  · exact fun _ => ⟨⟨0, "c", 0, 0⟩, by rw [ho2]; rfl⟩
  · exact ⟨_, by rw [ho1]; exact List.mem_cons_self, rfl⟩
  · exact fun _ => ⟨⟨0, "c", 0, 0⟩, by rw [ho2]; rfl⟩
  · exact ⟨_, by rw [ho1]; exact List.mem_cons_of_mem _ List.mem_cons_self, rfl⟩
  · exact fun _ => ⟨⟨0, "c", 1, 0⟩, by rw [ho2]; rfl⟩
  · exact ⟨_, by rw [ho1]; exact List.mem_cons_of_mem _ (List.mem_cons_of_mem _ List.mem_cons_self), rfl⟩

/-- Non-vacuity of C81_producer: a proxied handshake; the producer registers with the broker behind the proxy. -/
example : ∃ s cm, Reachable cfg0 s ∧ s.nClients = 1 ∧ Steps (producerConnect "t")
      [.handed .connect (.ok 0), .waited 0 .connect (.ok .connected), .handed (.lookupTopic "t") (.ok 1),
       .waited 1 (.lookupTopic "t") (.ok (.lookup ⟨0, "pulsar://z:1", "", .connect, false, true⟩)),
       .handed (.connectToProxy "pulsar://z:1") (.ok 2), .waited 2 (.connectToProxy "pulsar://z:1") (.ok .connected),
       .handed (.lookupTopic "t") (.ok 3),
       .waited 3 (.lookupTopic "t") (.ok (.lookup ⟨1, "pulsar://z:1", "", .connect, false, false⟩)),
       .handed (.producer "t") (.ok 4)] ∧
    Submitted s 0 [.connect, .lookupTopic "t", .connectToProxy "pulsar://z:1", .lookupTopic "t", .producer "t"] ∧
    Registers cm.out ∧ (b1, cm) ∈ passedOn s.sent 0 := by
  obtain ⟨s, hr, ho⟩ := reachable_obs
    (f := fun s => (s.nClients, (s.clients 0).submitted.map (·.out), (passedOn s.sent 0).getLast?))
    (as := boot ++ join 0 ++ shakeHands 0 0 ++ ask 0 (.lookupTopic "t") ++ say b0 (lookupC 0 "pulsar://z:1" 1 true) (some 1) ++
      ask 0 (.connectToProxy "pulsar://z:1") ++ [.connCmd b1 .ok, .connRead b1 (.command connectedC (some 2)), .engConnectDone] ++
      ask 0 (.lookupTopic "t") ++ say b1 (lookupC 1 "pulsar://z:1" 2 false) (some 3) ++ ask 0 (.producer "t"))
    (x := (1, [.connect ⟨none, none, none⟩, .lookupTopic ⟨0, "t"⟩, .connect ⟨none, none, some (.proxy "" "pulsar://z:1")⟩,
            .lookupTopic ⟨1, "t"⟩, .producer ⟨"t", 0, 2, some "c"⟩], some (b1, ⟨.producer ⟨"t", 0, 2, some "c"⟩, some 4⟩))) (by rfl)
  simp only [Prod.mk.injEq] at ho
  exact ⟨s, ⟨.producer ⟨"t", 0, 2, some "c"⟩, some 4⟩, ⟨_, hr⟩, ho.1,
    .hand _ _ _ _ (.handed _ 0) <| .wait _ _ _ _ _ (.waited 0 _ (some .connected)) <|
    .hand _ _ _ _ (.handed _ 1) <| .wait _ _ _ _ _ (.waited 1 _ (some (.lookupTopicResponse ⟨0, "pulsar://z:1", "", .connect, false, true⟩))) <|
    .hand _ _ _ _ (.handed _ 2) <| .wait _ _ _ _ _ (.waited 2 _ (some .connected)) <|
    .hand _ _ _ _ (.handed _ 3) <| .wait _ _ _ _ _ (.waited 3 _ (some (.lookupTopicResponse ⟨1, "pulsar://z:1", "", .connect, false, false⟩))) <|
    .hand _ _ _ _ (.handed _ 4) <| .nil _, ⟨⟨0, "c", 0, 0⟩, ho.2.1⟩, trivial, List.mem_of_getLast? ho.2.2⟩

/-! ## C39/C82 -/

/-- The answer to the first lookup decides: if it says "failed", resolving the topic returns `ConnectionFailed`. -/
theorem C82_first_lookup {topic : String} {tr : List Ev} {o : Outcome Unit} (h : Runs (lookupTopic topic) tr o)
    {l : LookupTopicResponse} (hl : (lookups tr).head? = some l) (hf : l.responseType = .failed) :
    o = .err .connectionFailed := by
  rcases runs_lookupTopic h with ⟨_, _, _, l', h1, h2⟩ | ⟨e, h1, h2⟩ | ⟨l', h1, ⟨h2, _⟩ | ⟨_, h3⟩, _⟩
  · rw [hl] at h1; cases h1; rw [hf] at h2; exact absurd h2 (by simp)
  · -- a later step failed: impossible after a refused lookup
    unfold lookupTopic at h
    rcases runs_bind.mp h with ⟨tr1, tr3, r, rfl, h4, h5⟩ | ⟨e', he, _⟩ | ⟨hp, _⟩
    · obtain ⟨l', rfl⟩ := runs_lookup_call h4
      obtain ⟨t, i, rfl, _⟩ := runs_call_ok h4
      have : l' = l := by
        rw [lookups_append] at hl
        change (l' :: lookups tr3).head? = some l at hl
        simpa using hl
      subst this
      dsimp only at h5
      rw [hf, runs_ret] at h5
      exact h5.2
    · rcases runs_call.mp he with ⟨rfl, _⟩ | ⟨t, i, rfl, hx⟩
      · simp [lookups] at hl
      · rw [← hx] at hl; simp [lookups] at hl
    · exact (runs_call_panic hp).elim
  · exact h2
  · rw [h1] at hl; simp only [List.head?_cons, Option.some.injEq] at hl; subst hl; rw [hf] at h3; exact absurd h3 (by simp)

/-- The whole claim is false in two ways.  First: the answer to the second lookup, the one made at the broker behind the proxy, is
ignored; it says "failed" and creating the producer goes on and succeeds. -/
theorem C39_refuted : ∃ s tr l1 l2, Reachable cfg0 s ∧ Runs (producerConnect "t") tr (.ok ()) ∧
    (∀ ev, ev ∈ tr → Fits s 0 ev) ∧ lookups tr = [l1, l2] ∧ l2.responseType = .failed := by
  obtain ⟨s, hr, ho⟩ := reachable_obs
    (f := fun s => (s.outcomes, s.issued))
    (as := boot ++ join 0 ++ shakeHands 0 0 ++ ask 0 (.lookupTopic "t") ++ say b0 (lookupC 0 "pulsar://z:1" 1 true) (some 1) ++
      ask 0 (.connectToProxy "pulsar://z:1") ++ [.connCmd b1 .ok, .connRead b1 (.command connectedC (some 2)), .engConnectDone] ++
      ask 0 (.lookupTopic "t") ++ say b1 (lookupC 1 "pulsar://z:1" 2 false) (some 3) ++
      ask 0 (.producer "t") ++ say b1 (producerSuccessC 2) (some 4))
    (x := ([(0, .resolved ⟨.connected, some 0⟩),
            (1, .resolved ⟨.lookupTopicResponse ⟨0, "pulsar://z:1", "", .connect, false, true⟩, some 1⟩),
            (2, .resolved ⟨.connected, some 2⟩),
            (3, .resolved ⟨.lookupTopicResponse ⟨1, "pulsar://z:1", "", .failed, false, false⟩, some 3⟩),
            (4, .resolved ⟨.producerSuccess ⟨2, "p"⟩, some 4⟩)],
           [(0, .connect ⟨none, none, none⟩), (0, .lookupTopic ⟨0, "t"⟩), (0, .connect ⟨none, none, some (.proxy "" "pulsar://z:1")⟩),
            (0, .lookupTopic ⟨1, "t"⟩), (0, .producer ⟨"t", 0, 2, some "c"⟩)])) (by rfl)
  simp only [Prod.mk.injEq] at ho
  obtain ⟨ho1, ho2⟩ := ho
  refine ⟨s, _, _, _, ⟨_, hr⟩, runs_proxiedHandshake .failed, ?_, rfl, rfl⟩
  intro ev hev
  simp only [proxiedHandshake, List.mem_cons, List.not_mem_nil, or_false] at hev
  rcases hev with rfl | rfl | rfl | rfl | rfl | rfl | rfl | rfl | rfl | rfl
  · exact fun _ => ⟨⟨0, "c", 0, 0⟩, by rw [ho2]; rfl⟩
  · exact ⟨_, by rw [ho1]; exact List.mem_cons_self, rfl⟩
  · exact fun _ => ⟨⟨0, "c", 0, 0⟩, by rw [ho2]; rfl⟩
  · exact ⟨_, by rw [ho1]; exact List.mem_cons_of_mem _ List.mem_cons_self, rfl⟩
  · exact fun _ => ⟨⟨0, "c", 0, 0⟩, by rw [ho2]; rfl⟩
  · exact ⟨_, by rw [ho1]; exact List.mem_cons_of_mem _ (List.mem_cons_of_mem _ List.mem_cons_self), rfl⟩
  · exact fun _ => ⟨⟨0, "c", 1, 0⟩, by rw [ho2]; rfl⟩
  · exact ⟨_, by rw [ho1]; exact List.mem_cons_of_mem _ (List.mem_cons_of_mem _ (List.mem_cons_of_mem _ List.mem_cons_self)), rfl⟩
  · exact fun _ => ⟨⟨0, "c", 2, 0⟩, by rw [ho2]; rfl⟩
  · exact ⟨_, by rw [ho1]; exact List.mem_cons_of_mem _ (List.mem_cons_of_mem _ (List.mem_cons_of_mem _
      (List.mem_cons_of_mem _ List.mem_cons_self))), rfl⟩

/-- Second: an answer of type "redirect" panics in the caller's task. -/
theorem C39_refuted_redirect (topic : String) (l : LookupTopicResponse) (hl : l.responseType = .redirect) :
    Runs (lookupTopic topic) [.handed (.lookupTopic topic) (.ok 0), .waited 0 (.lookupTopic topic) (.ok (.lookup l))] .panic := by
  refine .hand _ _ _ _ _ (.handed _ 0) <| .wait _ _ _ _ _ _ (.waited 0 _ (some (.lookupTopicResponse l))) ?_
  show Runs (match l.responseType with
    | .connect => _
    | .redirect => .ret .panic
    | .failed => _) [] .panic
  rw [hl]
  exact .ret _

/-- Non-vacuity of C82_first_lookup. -/
example : Runs (lookupTopic "t") [.handed (.lookupTopic "t") (.ok 0),
    .waited 0 (.lookupTopic "t") (.ok (.lookup ⟨0, "", "", .failed, false, false⟩))] (.err .connectionFailed) :=
  .hand _ _ _ _ _ (.handed _ 0) <| .wait _ _ _ _ _ _ (.waited 0 _ (some (.lookupTopicResponse _))) <| .ret _

/-! ## C45 -/

/-- A request ends in one way only. -/
theorem outcome_unique {cfg : Cfg} {s : State} (h : Reachable cfg s) {t : Nat} {r r' : TokResult} (h1 : (t, r) ∈ s.outcomes)
    (h2 : (t, r') ∈ s.outcomes) : r = r' := by
  have hlt := outcome_lt h h1
  have hc := (C18_count h t hlt).2
  rw [List.mem_iff_append] at h1
  obtain ⟨a, b, hab⟩ := h1
  rw [hab] at h2 hc
  simp only [List.map_append, List.map_cons, List.count_append, List.count_cons_self] at hc
  rcases List.mem_append.mp h2 with hx | hx
  · have := List.count_pos_iff.mpr (List.mem_map_of_mem (f := fun p : Tok × TokResult => p.1) hx)
    simp only at this; omega
  · rcases List.mem_cons.mp hx with hx | hx
    · simpa using hx.symm
    · have := List.count_pos_iff.mpr (List.mem_map_of_mem (f := fun p : Tok × TokResult => p.1) hx)
      simp only at this; omega

/-- The request made for a send, and the receipt that completed it. -/
def Confirmed (as : List Act) (s : State) (i t : Nat) (send : Send) : Prop :=
  s.issued[t]? = some (i, .send send) ∧ ∃ e r b, (t, TokResult.resolved e) ∈ s.outcomes ∧ e.inb = .sendReceipt r ∧
    r.sequenceId = send.sequenceId ∧ ReadFrom as b (.sendReceipt r) e.answers

theorem confirmed_of_ok {cfg : Cfg} {as : List Act} {s : State} (h : Run cfg as s) {i t : Nat} {send : Send} {e : Event}
    (hi : s.issued[t]? = some (i, .send send)) (ho : (t, TokResult.resolved e) ∈ s.outcomes) : Confirmed as s i t send := by
  obtain ⟨b, inb, h1, h2, i', out, h3, h4⟩ := C20_from_broker h ho
  rw [hi] at h3
  simp only [Option.some.injEq, Prod.mk.injEq] at h3
  obtain ⟨rfl, rfl⟩ := h3
  cases inb with
  | sendReceipt r =>
    have he : e.inb = .sendReceipt r := by rcases h2 with h2 | h2 <;> exact h2
    exact ⟨hi, e, r, b, ho, he, h4, h1⟩
  | _ => exact absurd h4 (by simp [Answers])

/-- One call of `send` or `send_batch`, from hand-over to result. -/
theorem send_result {cfg : Cfg} {as : List Act} {s : State} (h : Run cfg as s) {i : Nat} {c : Call} {tr : List Ev} {o : Outcome Unit}
    (hs : ∀ core : Client, ∃ send, (core.issue c).2 = .send send) (hx : c.expectsResponse = true)
    (hr : Runs (do let _ ← call c; pure ()) tr o) (hf : ∀ ev, ev ∈ tr → Fits s i ev) :
    (∃ (t : Nat) (core : Client) (send : Send), (core.issue c).2 = .send send ∧ o = .ok () ∧ Confirmed as s i t send) ∨
    (o = .err .channelTerminated ∧ (tr = [.handed c (.err .channelTerminated)] ∨
      ∃ (t : Nat) (core : Client), s.issued[t]? = some (i, (core.issue c).2) ∧ (t, TokResult.cancelled) ∈ s.outcomes)) := by
  have key : ∀ {tr x}, Runs (call c) tr x → (∀ ev, ev ∈ tr → Fits s i ev) →
      (∃ (t : Nat) (core : Client) (send : Send), (core.issue c).2 = .send send ∧ (∃ r, x = .ok r) ∧ Confirmed as s i t send) ∨
      (x = .err .channelTerminated ∧ (tr = [.handed c (.err .channelTerminated)] ∨
        ∃ (t : Nat) (core : Client), s.issued[t]? = some (i, (core.issue c).2) ∧ (t, TokResult.cancelled) ∈ s.outcomes)) := by
    intro tr x hr hf
    rcases runs_call.mp hr with ⟨rfl, rfl⟩ | ⟨t, inp, rfl, rfl⟩
    · exact .inr ⟨rfl, .inl rfl⟩
    · obtain ⟨core, hc⟩ := hf (.handed c (.ok t)) (by simp) hx
      obtain ⟨res, hres, hreq⟩ := hf (.waited t c (c.resolve inp)) (by simp)
      rw [hreq]
      cases res with
      | cancelled => exact .inr ⟨rfl, .inr ⟨t, core, hc, hres⟩⟩
      | resolved e =>
        obtain ⟨r, hok, _⟩ := C19_never_unresolvable ⟨_, h⟩ hres hc hx
        obtain ⟨send, hsend⟩ := hs core
        exact .inl ⟨t, core, send, hsend, ⟨r, hok⟩, confirmed_of_ok h (by rw [hc, hsend]) hres⟩
  rcases runs_bind.mp hr with ⟨tr1, tr2, r, rfl, h1, h2⟩ | ⟨e, he, rfl⟩ | ⟨hp, _⟩
  · rw [runs_pure] at h2
    obtain ⟨rfl, rfl⟩ := h2
    rw [List.append_nil] at hf ⊢
    rcases key h1 hf with ⟨t, core, send, g1, _, g2⟩ | ⟨g1, _⟩
    · exact .inl ⟨t, core, send, g1, rfl, g2⟩
    · exact absurd g1 (by simp)
  · rcases key he hf with ⟨t, core, send, g1, ⟨r, hr⟩, g2⟩ | ⟨g1, g2⟩
    · exact absurd hr (by simp)
    · cases g1; exact .inr ⟨rfl, g2⟩
  · exact (runs_call_panic hp).elim

/-- `send` returns `Ok` only after the broker's receipt with the message's own sequence id was read from a socket; otherwise it
returns an error, and then the payload could not be serialised, the engine was gone, or the request failed because the engine
stopped (or because another request took its place, see C23). -/
theorem C45_send {cfg : Cfg} {as : List Act} {s : State} (h : Run cfg as s) {i : Nat} {T : Type} {serialize : T → Option Bytes}
    {m : T} {tr : List Ev} {o : Outcome Unit} (hr : Runs (send serialize m) tr o) (hf : ∀ ev, ev ∈ tr → Fits s i ev) :
    (∃ payload t name id seq, serialize m = some payload ∧ o = .ok () ∧ Confirmed as s i t (.single name id seq payload)) ∨
    (serialize m = none ∧ o = .err .serializationFailed ∧ tr = []) ∨
    (∃ payload, serialize m = some payload ∧ o = .err .channelTerminated ∧
      (tr = [.handed (.sendMessage payload) (.err .channelTerminated)] ∨
       ∃ t name id seq, s.issued[t]? = some (i, .send (.single name id seq payload)) ∧ (t, TokResult.cancelled) ∈ s.outcomes)) := by
  unfold send at hr
  cases hm : serialize m with
  | none =>
    rw [hm, runs_ret] at hr
    exact .inr (.inl ⟨rfl, hr.2, hr.1⟩)
  | some payload =>
    rw [hm] at hr
    rcases send_result h (fun core => ⟨_, rfl⟩) rfl hr hf with ⟨t, core, send, g1, g2, g3⟩ | ⟨g1, g2⟩
    · simp only [Client.issue, Outbound.send.injEq] at g1
      subst g1
      exact .inl ⟨payload, t, _, _, _, rfl, g2, g3⟩
    · refine .inr (.inr ⟨payload, rfl, g1, ?_⟩)
      rcases g2 with g2 | ⟨t, core, g2, g3⟩
      · exact .inl g2
      · exact .inr ⟨t, _, _, _, g2, g3⟩

/-- The same for `send_batch` (which panics instead if a message cannot be serialised). -/
theorem C45_send_batch {cfg : Cfg} {as : List Act} {s : State} (h : Run cfg as s) {i : Nat} {T : Type}
    {serialize : T → Option Bytes} {ms : List T} {tr : List Ev} {o : Outcome Unit} (hr : Runs (sendBatch serialize ms) tr o)
    (hf : ∀ ev, ev ∈ tr → Fits s i ev) :
    (∃ payloads t name id seq, ms.mapM serialize = some payloads ∧ o = .ok () ∧
      Confirmed as s i t (.batch name id seq payloads)) ∨
    (ms.mapM serialize = none ∧ o = .panic ∧ tr = []) ∨
    (∃ payloads, ms.mapM serialize = some payloads ∧ o = .err .channelTerminated ∧
      (tr = [.handed (.sendBatch payloads) (.err .channelTerminated)] ∨
       ∃ t name id seq, s.issued[t]? = some (i, .send (.batch name id seq payloads)) ∧ (t, TokResult.cancelled) ∈ s.outcomes)) := by
  unfold sendBatch at hr
  cases hm : ms.mapM serialize with
  | none =>
    rw [hm, runs_ret] at hr
    exact .inr (.inl ⟨rfl, hr.2, hr.1⟩)
  | some payloads =>
    rw [hm] at hr
    rcases send_result h (fun core => ⟨_, rfl⟩) rfl hr hf with ⟨t, core, send, g1, g2, g3⟩ | ⟨g1, g2⟩
    · simp only [Client.issue, Outbound.send.injEq] at g1
      subst g1
      exact .inl ⟨payloads, t, _, _, _, rfl, g2, g3⟩
    · refine .inr (.inr ⟨payloads, rfl, g1, ?_⟩)
      rcases g2 with g2 | ⟨t, core, g2, g3⟩
      · exact .inl g2
      · exact .inr ⟨t, _, _, _, g2, g3⟩

/-- If the engine stops while the message waits for its receipt, the call can only end in `ChannelTerminated`, then or later. -/
theorem C45_lost_while_waiting {cfg : Cfg} {s s1 s2 : State} {a : Act} {bs : List Act} (h : Reachable cfg s)
    (hs : step cfg s a = some s1) (hm : s.mode ≠ .stopped) (hm1 : s1.mode = .stopped) (he : exec cfg s1 bs = some s2)
    {t i : Nat} (ht : AwaitingResponse s t) {c : Call} {r : Outcome Response} (hf : Fits s2 i (.waited t c r)) :
    r = .err .channelTerminated := by
  have h1 : Reachable cfg s1 := h.step hs
  have hc := C31_waiting_fail hs hm hm1 ht
  have h2 : Reachable cfg s2 := by
    obtain ⟨as, hr⟩ := h1
    exact ⟨_, run_of_exec hr he⟩
  have hc2 : (t, TokResult.cancelled) ∈ s2.outcomes := by
    clear hm1 h1 h2 hf hs
    induction bs generalizing s1 with
    | nil => simp only [exec, Option.some.injEq] at he; exact he ▸ hc
    | cons b bs ih =>
      simp only [exec] at he
      cases hb : step cfg s1 b with
      | none => rw [hb] at he; exact absurd he (by simp)
      | some s' => rw [hb] at he; exact ih he ((C18_final hb).subset hc)
  obtain ⟨res, hres, rfl⟩ := hf
  rw [outcome_unique h2 hres hc2]
  rfl

/-- The other half of the claim fails: a message handed over just before the engine stops is neither confirmed nor failed, ever,
so `send` does not return. -/
theorem C32_refuted_send : ∃ s, Reachable cfg0 s ∧ s.mode = .stopped ∧
    Steps (send some [1]) [.handed (.sendMessage [1]) (.ok 0)] ∧ Fits s 0 (.handed (.sendMessage [1]) (.ok 0)) ∧
    ∀ as s', Path cfg0 (fun x => (x.clients 0).phase ≠ .gone) s as s' → ∀ c r, ¬ Fits s' 0 (.waited 0 c r) := by
  obtain ⟨s, hr, hs⟩ := reachable_obs
    (as := boot ++ join 0 ++ [.beginCall 0 (.sendMessage [1]), .submit 0 0, .connRead b0 .closed, .engIn b0])
    (f := fun s => (s.mode, s.nClients, (s.clients 0).queue.map (·.tok), s.issued))
    (x := (.stopped, 1, [some 0], [(0, .send (.single "c" 0 0 [1]))])) rfl
  simp only [Prod.mk.injEq] at hs
  obtain ⟨hm, hn, hq, hi⟩ := hs
  refine ⟨s, ⟨_, hr⟩, hm, .hand _ _ _ _ (.handed _ _) (.nil _), fun _ => ⟨⟨0, "c", 0, 0⟩, by rw [hi]; rfl⟩, ?_⟩
  intro as s' hp c r hf
  obtain ⟨res, hres, _⟩ := hf
  cases hql : (s.clients 0).queue with
  | nil => rw [hql] at hq; simp at hq
  | cons cm q =>
    rw [hql] at hq
    simp only [List.map_cons, List.cons.injEq] at hq
    exact (hangs ⟨_, hr⟩ hm (by rw [hn]; decide) (by rw [hql]; exact List.mem_cons_self) hq.1 hp).2 res hres

/-- A send that was confirmed. (The hypotheses of C45_send are met.) -/
example : ∃ as s, Run cfg0 as s ∧ Runs (send some [1])
      [.handed (.sendMessage [1]) (.ok 0), .waited 0 (.sendMessage [1]) (.ok (.receipt ⟨0, 0, Proto.newMsg Proto.pulsar .messageIdData⟩))]
      (.ok ()) ∧
    Fits s 0 (.handed (.sendMessage [1]) (.ok 0)) ∧
    Fits s 0 (.waited 0 (.sendMessage [1]) (.ok (.receipt ⟨0, 0, Proto.newMsg Proto.pulsar .messageIdData⟩))) := by
  obtain ⟨s, hr, ho⟩ := reachable_obs (f := fun s => (s.outcomes, s.issued))
    (as := boot ++ join 0 ++ ask 0 (.sendMessage [1]) ++ say b0 (receiptC 0 0) (some 0))
    (x := ([(0, .resolved ⟨.sendReceipt ⟨0, 0, Proto.newMsg Proto.pulsar .messageIdData⟩, some 0⟩)],
           [(0, .send (.single "c" 0 0 [1]))])) (by rfl)
  simp only [Prod.mk.injEq] at ho
  refine ⟨_, s, hr, ?_, fun _ => ⟨⟨0, "c", 0, 0⟩, by rw [ho.2]; rfl⟩,
    ⟨.resolved ⟨.sendReceipt ⟨0, 0, Proto.newMsg Proto.pulsar .messageIdData⟩, some 0⟩, by rw [ho.1]; exact List.mem_cons_self, rfl⟩⟩
  exact .hand _ _ _ _ _ (.handed _ 0) <| .wait _ _ _ _ _ _ (.waited 0 _ (some (.sendReceipt _))) <| .ret _

/-! ## C46/C86 and C47/C87 -/

theorem runs_handAll {cs : List (Outcome Call)} {tr : List Ev} {o : Outcome (List (Nat × Call))} (h : Runs (handAll cs) tr o) :
    ∃ ts, o = .ok ts ∧ calls tr = (cs.filterMap fun c => match c with
        | .ok c => some c
        | _ => none) ∧
      (∀ t c, .handed c (.ok t) ∈ tr → (t, c) ∈ ts) ∧ ∀ t c, (t, c) ∈ ts → Ev.handed c (.ok t) ∈ tr := by
  induction cs generalizing tr o with
  | nil =>
    unfold handAll at h
    rw [runs_pure] at h
    exact ⟨[], h.2, by rw [h.1]; rfl, by rw [h.1]; simp, by simp⟩
  | cons x cs ih =>
    cases x with
    | ok c =>
      unfold handAll at h
      rcases runs_andThen.mp h with ⟨tr1, tr2, x, rfl, h1, h2, h3⟩ | ⟨h1, _⟩
      · rw [runs_handOver] at h1
        obtain ⟨rfl, h1⟩ := h1
        rcases runs_bind.mp h3 with ⟨tr3, tr4, ts, rfl, h4, h5⟩ | ⟨e, he, _⟩ | ⟨hp, _⟩
        · obtain ⟨ts', hts, i1, i2, i3⟩ := ih h4
          simp only [Outcome.ok.injEq] at hts
          subst hts
          rcases h1 with rfl | ⟨t, rfl⟩
          · rw [runs_pure] at h5
            obtain ⟨rfl, rfl⟩ := h5
            refine ⟨ts, rfl, ?_, ?_, ?_⟩
            · rw [List.append_nil, calls_append, i1]; rfl
            · intro t c' ht
              simp only [List.append_nil, List.mem_append, List.mem_cons, List.not_mem_nil, or_false] at ht
              rcases ht with ht | ht
              · cases ht
              · exact i2 t c' ht
            · intro t c' ht
              simp only [List.append_nil, List.mem_append]
              exact .inr (i3 t c' ht)
          · rw [runs_pure] at h5
            obtain ⟨rfl, rfl⟩ := h5
            refine ⟨_, rfl, ?_, ?_, ?_⟩
            · rw [List.append_nil, calls_append, i1]; rfl
            · intro t' c' ht
              simp only [List.append_nil, List.mem_append, List.mem_cons, List.not_mem_nil, or_false] at ht
              rcases ht with ht | ht
              · cases ht; exact List.mem_cons_self
              · exact List.mem_cons_of_mem _ (i2 t' c' ht)
            · intro t' c' ht
              simp only [List.append_nil, List.mem_append]
              rcases List.mem_cons.mp ht with ht | ht
              · cases ht; exact .inl (by simp)
              · exact .inr (i3 t' c' ht)
        · obtain ⟨_, hx, _⟩ := ih he; exact absurd hx (by simp)
        · obtain ⟨_, hx, _⟩ := ih hp; exact absurd hx (by simp)
      · rw [runs_handOver] at h1
        rcases h1.2 with hx | ⟨_, hx⟩ <;> exact absurd hx (by simp)
    | err e => unfold handAll at h; simpa using ih h
    | panic => unfold handAll at h; simpa using ih h

theorem runs_waitAll {ts : List (Nat × Call)} {tr : List Ev} {o : Outcome Unit} (h : Runs (waitAll ts) tr o) :
    o = .ok () ∧ calls tr = [] ∧ ∀ t c, (t, c) ∈ ts → ∃ r, Ev.waited t c r ∈ tr := by
  induction ts generalizing tr o with
  | nil =>
    unfold waitAll at h
    rw [runs_pure] at h
    exact ⟨h.2, by rw [h.1]; rfl, by simp⟩
  | cons x ts ih =>
    obtain ⟨t, c⟩ := x
    unfold waitAll at h
    rcases runs_andThen.mp h with ⟨tr1, tr2, x, rfl, h1, h2, h3⟩ | ⟨h1, _⟩
    · rw [runs_await] at h1
      obtain ⟨rfl, i, rfl⟩ := h1
      obtain ⟨g1, g2, g3⟩ := ih h3
      refine ⟨g1, by rw [calls_append, g2]; rfl, ?_⟩
      intro t' c' ht
      rcases List.mem_cons.mp ht with ht | ht
      · cases ht; exact ⟨_, List.mem_append_left _ List.mem_cons_self⟩
      · obtain ⟨r, hr⟩ := g3 t' c' ht
        exact ⟨r, List.mem_append_right _ hr⟩
    · rw [runs_await] at h1
      obtain ⟨_, i, hi⟩ := h1
      exact absurd hi.symm (resolve_not_panic _ _)

theorem runs_all {cs : List (Outcome Call)} {tr : List Ev} {o : Outcome Unit}
    (h : Runs (do let ts ← handAll cs; waitAll ts; pure ()) tr o) :
    o = .ok () ∧ calls tr = (cs.filterMap fun c => match c with
        | .ok c => some c
        | _ => none) ∧
    ∀ t c, Ev.handed c (.ok t) ∈ tr → ∃ r, Ev.waited t c r ∈ tr := by
  rcases runs_bind.mp h with ⟨tr1, tr2, ts, rfl, h1, h2⟩ | ⟨e, he, _⟩ | ⟨hp, _⟩
  · obtain ⟨ts', hts, i1, i2, _⟩ := runs_handAll h1
    simp only [Outcome.ok.injEq] at hts
    subst hts
    rcases runs_bind.mp h2 with ⟨tr3, tr4, _, rfl, h3, h4⟩ | ⟨e, he, _⟩ | ⟨hp, _⟩
    · rw [runs_pure] at h4
      obtain ⟨rfl, rfl⟩ := h4
      obtain ⟨_, g2, g3⟩ := runs_waitAll h3
      refine ⟨rfl, by rw [calls_append, List.append_nil, g2, i1, List.append_nil], ?_⟩
      intro t c ht
      rw [List.append_nil] at ht ⊢
      have hin : (t, c) ∈ ts := by
        rcases List.mem_append.mp ht with ht | ht
        · exact i2 t c ht
        · exfalso
          have : c ∈ calls tr3 := by unfold calls; rw [List.mem_filterMap]; exact ⟨_, ht, rfl⟩
          rw [g2] at this
          simp at this
      obtain ⟨r, hr⟩ := g3 t c hin
      exact ⟨r, List.mem_append_right _ hr⟩
    · exact absurd (runs_waitAll he).1 (by simp)
    · exact absurd (runs_waitAll hp).1 (by simp)
  · obtain ⟨_, hx, _⟩ := runs_handAll he; exact absurd hx (by simp)
  · obtain ⟨_, hx, _⟩ := runs_handAll hp; exact absurd hx (by simp)

/-- What is true of `send_all`: the messages that can be serialised are handed over one by one, in order, each exactly once; and
when it returns, each one the engine accepted has either been confirmed by a receipt with its own sequence id, or has failed. -/
theorem C86_send_all {cfg : Cfg} {as : List Act} {s : State} (h : Run cfg as s) {i : Nat} {T : Type} {serialize : T → Option Bytes}
    {ms : List T} {tr : List Ev} {o : Outcome Unit} (hr : Runs (sendAll serialize ms) tr o) (hf : ∀ ev, ev ∈ tr → Fits s i ev) :
    calls tr = (ms.filterMap serialize).map .sendMessage ∧
    ∀ t payload, Ev.handed (.sendMessage payload) (.ok t) ∈ tr →
      (∃ name id seq, Confirmed as s i t (.single name id seq payload)) ∨ (t, TokResult.cancelled) ∈ s.outcomes := by
  unfold sendAll at hr
  obtain ⟨_, h2, h3⟩ := runs_all hr
  refine ⟨?_, fun t payload ht => ?_⟩
  · rw [h2]
    clear hr h2 h3
    induction ms with
    | nil => rfl
    | cons m ms ih =>
      simp only [List.map_cons, List.filterMap_cons]
      cases hm : serialize m with
      | none => exact ih
      | some p => simp [ih]
  · obtain ⟨r, hw⟩ := h3 t _ ht
    obtain ⟨core, hc⟩ := hf _ ht rfl
    obtain ⟨res, hres, _⟩ := hf _ hw
    cases res with
    | cancelled => exact .inr hres
    | resolved e => exact .inl ⟨_, _, _, confirmed_of_ok h hc hres⟩

/-- The claim itself is false: `send_all` returns `Ok` whatever happens. -/
theorem C46_refuted_always_ok {T : Type} {serialize : T → Option Bytes} {ms : List T} {tr : List Ev} {o : Outcome Unit}
    (hr : Runs (sendAll serialize ms) tr o) : o = .ok () := (runs_all hr).1

/-- For example if the connection closes before the receipt: both messages fail, and `send_all` returns `Ok`. -/
theorem C46_refuted : ∃ s tr, Reachable cfg0 s ∧ Runs (sendAll some [[1], [2]]) tr (.ok ()) ∧ (∀ ev, ev ∈ tr → Fits s 0 ev) ∧
    calls tr = [.sendMessage [1], .sendMessage [2]] ∧ s.outcomes = [(0, .cancelled), (1, .cancelled)] := by
  obtain ⟨s, hr, ho⟩ := reachable_obs (f := fun s => (s.outcomes, s.issued))
    (as := boot ++ join 0 ++ ask 0 (.sendMessage [1]) ++ ask 0 (.sendMessage [2]) ++ [.connRead b0 .closed, .engIn b0])
    (x := ([(0, .cancelled), (1, .cancelled)],
           [(0, .send (.single "c" 0 0 [1])), (0, .send (.single "c" 0 1 [2]))])) (by rfl)
  simp only [Prod.mk.injEq] at ho
  refine ⟨s, _, ⟨_, hr⟩, .hand _ _ _ _ _ (.handed _ 0) <| .hand _ _ _ _ _ (.handed _ 1) <|
    .wait _ _ _ _ _ _ (.waited 0 _ none) <| .wait _ _ _ _ _ _ (.waited 1 _ none) <| .ret _, ?_, rfl, ho.1⟩
  intro ev hev
  simp only [List.mem_cons, List.not_mem_nil, or_false] at hev
  rcases hev with rfl | rfl | rfl | rfl
  · exact fun _ => ⟨⟨0, "c", 0, 0⟩, by rw [ho.2]; rfl⟩
  · exact fun _ => ⟨⟨0, "c", 0, 1⟩, by rw [ho.2]; rfl⟩
  · exact ⟨.cancelled, by rw [ho.1]; simp, rfl⟩
  · exact ⟨.cancelled, by rw [ho.1]; simp, rfl⟩

/-- A request was answered by an acknowledgement response. -/
def AckConfirmed (as : List Act) (s : State) (i t : Nat) (id : MessageId) : Prop :=
  ∃ consumer req e a b, s.issued[t]? = some (i, .ack [⟨consumer, id, req⟩]) ∧ (t, TokResult.resolved e) ∈ s.outcomes ∧
    e.inb = .ackReciept a ∧ ReadFrom as b (.ackReciept a) e.answers

theorem ackConfirmed_of_ok {cfg : Cfg} {as : List Act} {s : State} (h : Run cfg as s) {i t : Nat} {id : MessageId} {core : Client}
    {e : Event} (hi : s.issued[t]? = some (i, (core.issue (.ack id)).2)) (ho : (t, TokResult.resolved e) ∈ s.outcomes) :
    AckConfirmed as s i t id := by
  obtain ⟨b, inb, h1, h2, i', out, h3, h4⟩ := C20_from_broker h ho
  rw [hi] at h3
  simp only [Option.some.injEq, Prod.mk.injEq] at h3
  obtain ⟨rfl, rfl⟩ := h3
  cases inb with
  | ackReciept a =>
    have he : e.inb = .ackReciept a := by rcases h2 with h2 | h2 <;> exact h2
    exact ⟨_, _, e, a, b, hi, ho, he, h1⟩
  | _ => exact absurd h4 (by simp [Answers, Client.issue])

/-- What is true of `ack_all`: one acknowledgement per given message, in order; and when it returns, each one the engine accepted
has either been answered by the broker or has failed. -/
theorem C87_ack_all {cfg : Cfg} {as : List Act} {s : State} (h : Run cfg as s) {i : Nat} {ids : List MessageId} {tr : List Ev}
    {o : Outcome Unit} (hr : Runs (ackAll ids) tr o) (hf : ∀ ev, ev ∈ tr → Fits s i ev) :
    calls tr = ids.map .ack ∧
    ∀ t id, Ev.handed (.ack id) (.ok t) ∈ tr → AckConfirmed as s i t id ∨ (t, TokResult.cancelled) ∈ s.outcomes := by
  unfold ackAll at hr
  obtain ⟨_, h2, h3⟩ := runs_all hr
  refine ⟨?_, fun t id ht => ?_⟩
  · rw [h2]
    clear hr h2 h3
    induction ids with
    | nil => rfl
    | cons m ms ih => simp only [List.map_cons, List.filterMap_cons]; rw [ih]
  · obtain ⟨r, hw⟩ := h3 t _ ht
    obtain ⟨core, hc⟩ := hf _ ht rfl
    obtain ⟨res, hres, _⟩ := hf _ hw
    cases res with
    | cancelled => exact .inr hres
    | resolved e => exact .inl (ackConfirmed_of_ok h hc hres)

/-- The second half of the claim is false: `ack_all` returns `Ok` whatever happens. -/
theorem C47_refuted_always_ok {ids : List MessageId} {tr : List Ev} {o : Outcome Unit} (hr : Runs (ackAll ids) tr o) :
    o = .ok () := (runs_all hr).1

/-- In fact with two messages at least one acknowledgement always fails as soon as the engine takes the second before the first
is answered, although the broker confirms both (see C22). -/
theorem C47_refuted : ∃ s tr, Reachable cfg0 s ∧ Runs (ackAll [[], []]) tr (.ok ()) ∧ (∀ ev, ev ∈ tr → Fits s 0 ev) ∧
    calls tr = [.ack [], .ack []] ∧ (0, TokResult.cancelled) ∈ s.outcomes := by
  obtain ⟨s, hr, ho⟩ := reachable_obs (f := fun s => (s.outcomes, s.issued))
    (as := boot ++ join 0 ++ ask 0 (.ack []) ++ ask 0 (.ack []) ++ say b0 (ackC 0 0) (some 0))
    (x := ([(0, .cancelled), (1, .resolved ⟨.ackReciept ⟨0, 0⟩, some 0⟩)],
           [(0, .ack [⟨0, [], 0⟩]), (0, .ack [⟨0, [], 1⟩])])) (by rfl)
  simp only [Prod.mk.injEq] at ho
  refine ⟨s, _, ⟨_, hr⟩, .hand _ _ _ _ _ (.handed _ 0) <| .hand _ _ _ _ _ (.handed _ 1) <|
    .wait _ _ _ _ _ _ (.waited 0 _ none) <| .wait _ _ _ _ _ _ (.waited 1 _ (some (.ackReciept ⟨0, 0⟩))) <| .ret _, ?_, rfl, ?_⟩
  · intro ev hev
    simp only [List.mem_cons, List.not_mem_nil, or_false] at hev
    rcases hev with rfl | rfl | rfl | rfl
    · exact fun _ => ⟨⟨0, "c", 0, 0⟩, by rw [ho.2]; rfl⟩
    · exact fun _ => ⟨⟨0, "c", 1, 0⟩, by rw [ho.2]; rfl⟩
    · exact ⟨.cancelled, by rw [ho.1]; simp, rfl⟩
    · exact ⟨.resolved ⟨.ackReciept ⟨0, 0⟩, some 0⟩, by rw [ho.1]; exact List.mem_cons_of_mem _ List.mem_cons_self, rfl⟩
  · rw [ho.1]; exact List.mem_cons_self

end Neutron.Props
