import Verif.Proof.SysHonest

/-!
# The engine's waits for `CONNECTED`

At most one reply is pending per live connection, and only while the engine waits for it (or ended waiting for it); a reply is
cancelled only when its connection ends.
-/

namespace Neutron.Sys

open Neutron

/-- The replies queued at a connection, and those it waits for. -/
def pending (c : ConnSt) : List Nat := c.queue.filterMap (·.reply) ++ c.resolver.map (·.2)

structure Wait (s : State) : Prop where
  live : ∀ b, (s.conns b).alive = true → pending (s.conns b) = [] ∨
    ∃ r, pending (s.conns b) = [r] ∧ (∀ x, (r, x) ∉ s.replyDone) ∧ (s.mode = .awaitConnect r b ∨ s.mode = .stopped)
  await : ∀ r b, s.mode = .awaitConnect r b → r ∈ pending (s.conns b) ∨ ∃ x, (r, x) ∈ s.replyDone
  dead : ∀ b, (s.conns b).alive = false → (s.conns b).resolver = []
  cancelled : ∀ r, (r, TokResult.cancelled) ∈ s.replyDone → ∃ b c, (b, c) ∈ s.sent ∧ c.reply = some r ∧ (s.conns b).alive = false

theorem Wait.init (cfg : Cfg) : Wait (init cfg) := by
  refine ⟨fun b _ => .inl rfl, ?_, ?_, ?_⟩ <;> simp [Sys.init, freshConn]

/-- Steps that leave connections and replies alone. -/
theorem Wait.congr {s s' : State} (h : Wait s) (hc : ∀ b, (s'.conns b).alive = (s.conns b).alive ∧
      pending (s'.conns b) = pending (s.conns b) ∧ (s'.conns b).resolver = (s.conns b).resolver)
    (hs : s.sent <+: s'.sent) (hd : s'.replyDone = s.replyDone)
    (hm : s'.mode = s.mode ∨ s'.mode = .stopped ∨
      (s'.mode = .idle ∧ ∀ r b, s.mode = .awaitConnect r b → ∃ x, (r, x) ∈ s.replyDone) ∧ s.mode ≠ .stopped) : Wait s' := by
  refine ⟨?_, ?_, ?_, ?_⟩
  · intro b hb
    rw [(hc b).1] at hb
    rw [(hc b).2.1, hd]
    rcases h.live b hb with h0 | ⟨r, h1, h2, h3⟩
    · exact .inl h0
    · rcases hm with hm | hm | ⟨⟨hm, hr⟩, hns⟩
      · exact .inr ⟨r, h1, h2, by rw [hm]; exact h3⟩
      · exact .inr ⟨r, h1, h2, .inr hm⟩
      · rcases h3 with h3 | h3
        · obtain ⟨x, hx⟩ := hr r b h3
          exact absurd hx (h2 x)
        · exact absurd h3 hns
  · intro r b hmode
    rw [(hc b).2.1, hd]
    rcases hm with hm | hm | ⟨⟨hm, _⟩, _⟩
    · rw [hm] at hmode; exact h.await r b hmode
    · rw [hm] at hmode; simp at hmode
    · rw [hm] at hmode; simp at hmode
  · intro b hb
    rw [(hc b).2.2]
    exact h.dead b (by rw [← (hc b).1]; exact hb)
  · intro r hr
    rw [hd] at hr
    obtain ⟨b, c, h1, h2, h3⟩ := h.cancelled r hr
    exact ⟨b, c, hs.subset h1, h2, by rw [(hc b).1]; exact h3⟩

theorem Wait.stop {s : State} (h : Wait s) : Wait (stop s) :=
  h.congr (fun _ => ⟨rfl, rfl, rfl⟩) (List.prefix_refl _) rfl (.inr (.inl rfl))

theorem pushed_pending (s : State) (b x : BrokerAddress) (c : ConnCmd) (hx : x ≠ b ∨ c.reply = none) :
    pending ((pushed s b c).conns x) = pending (s.conns x) := by
  unfold pending pushed
  simp only [setConn_conns]
  split
  · rename_i hb
    subst hb
    rcases hx with hx | hx
    · exact absurd rfl hx
    · simp [hx]
  · rfl

theorem Wait.pushed {s : State} (h : Wait s) (b : BrokerAddress) {c : ConnCmd} (hc : c.reply = none) : Wait (pushed s b c) :=
  h.congr (fun x => ⟨by simp, pushed_pending s b x c (.inr hc), by simp⟩) (by simp [Sys.pushed]) rfl (.inl rfl)

theorem pending_sent {cfg : Cfg} {s : State} (h : Reachable cfg s) {b : BrokerAddress} {r : Nat} (hr : r ∈ pending (s.conns b)) :
    ∃ c, (b, c) ∈ s.sent ∧ c.reply = some r := by
  unfold pending at hr
  rw [List.mem_append] at hr
  rcases hr with hr | hr
  · obtain ⟨c, hc, hcr⟩ := List.mem_filterMap.mp hr
    refine ⟨c, ?_, hcr⟩
    rw [← mem_sentTo, ← (conn h).accepted, ((conn h).ok b).fifo]
    exact List.mem_append_right _ hc
  · obtain ⟨p, hp, rfl⟩ := List.mem_map.mp hr
    obtain ⟨_, c, hc, hcr⟩ := (rep h).waiting b p.1 p.2 hp
    exact ⟨c, hc, hcr⟩

theorem pending_unique {cfg : Cfg} {s : State} (h : Reachable cfg s) {b b' : BrokerAddress} {r : Nat} (hr : r ∈ pending (s.conns b))
    (hr' : r ∈ pending (s.conns b')) : b = b' := by
  obtain ⟨c, hc, hcr⟩ := pending_sent h hr
  obtain ⟨c', hc', hcr'⟩ := pending_sent h hr'
  exact ((rep h).uniq b c b' c' hc hc' (by simp [hcr]) (by rw [hcr, hcr'])).1

/-- The connection takes a command from its channel. -/
theorem Wait.connTake {cfg : Cfg} {s : State} (h : Wait s) (hr : Reachable cfg s) {b : BrokerAddress} {c : ConnCmd} {q : List ConnCmd}
    (hl : (s.conns b).alive = true) (hq : (s.conns b).queue = c :: q) :
    Wait (connTake s b c q) ∧ (∀ x, pending ((connTake s b c q).conns x) = pending (s.conns x)) ∧
      (connTake s b c q).replyDone = s.replyDone := by
  have hpd : (∀ x, pending ((Sys.connTake s b c q).conns x) = pending (s.conns x)) ∧
      (Sys.connTake s b c q).replyDone = s.replyDone ∧
      ∀ x, ((Sys.connTake s b c q).conns x).alive = false → ((Sys.connTake s b c q).conns x).resolver = (s.conns x).resolver := by
    cases hcr : c.reply with
    | none =>
      refine ⟨?_, ?_, ?_⟩
      · intro x
        rw [connTake_conns]
        split
        · rename_i hx; subst hx
          simp [pending, hcr, hq]
        · rfl
      · simp [Sys.connTake, hcr]
      · intro x hx
        rw [connTake_conns]
        split
        · rename_i hx; subst hx; simp [hcr]
        · rfl
    | some r =>
      have hp : pending (s.conns b) = r :: (q.filterMap (·.reply) ++ (s.conns b).resolver.map (·.2)) := by
        simp [pending, hq, hcr]
      have hempty : (s.conns b).resolver = [] ∧ q.filterMap (·.reply) = [] := by
        rcases h.live b hl with h0 | ⟨r', h1, _⟩
        · rw [h0] at hp; simp at hp
        · rw [h1] at hp
          simp only [List.cons.injEq] at hp
          have := hp.2.symm
          simp only [List.append_eq_nil_iff, List.map_eq_nil_iff] at this
          exact ⟨this.2, this.1⟩
      have hkey : c.out.tryKey = some .connect := by
        obtain ⟨_, ⟨c2, hc2⟩, _⟩ := (rep hr).sentOk b c (by
          rw [← mem_sentTo, ← (conn hr).accepted, ((conn hr).ok b).fifo, hq]; simp) r hcr
        rw [hc2]; rfl
      refine ⟨?_, ?_, ?_⟩
      · intro x
        rw [connTake_conns]
        split
        · rename_i hx; subst hx
          simp only [pending, hcr, hq, hempty.1, Resolver.put, hkey, Resolver.erase, List.eraseP_nil, List.nil_append,
            List.filterMap_cons, hempty.2, List.map_cons, List.map_nil, List.append_nil]
        · rfl
      · simp only [Sys.connTake, hcr, hempty.1, Resolver.put, hkey]
        simp [Resolver.find]
      · intro x hx
        rw [connTake_conns]
        split
        · rename_i hx'; subst hx'
          rw [connTake_conns_alive, hl] at hx; simp at hx
        · rfl
  refine ⟨⟨?_, ?_, ?_, ?_⟩, hpd.1, hpd.2.1⟩
  · intro x hx
    rw [hpd.1 x, hpd.2.1, connTake_mode]
    exact h.live x (by simpa using hx)
  · intro r x hm
    rw [hpd.1 x, hpd.2.1]
    exact h.await r x (by simpa using hm)
  · intro x hx
    rw [hpd.2.2 x hx]
    exact h.dead x (by simpa using hx)
  · intro r hr
    rw [hpd.2.1] at hr
    obtain ⟨b', c', h1, h2, h3⟩ := h.cancelled r hr
    exact ⟨b', c', by simpa using h1, h2, by simpa using h3⟩

/-- Connections keep their pending replies when only other parts of them change. -/
theorem Wait.endConn {s : State} (h : Wait s)
    (hu : ∀ b b' r, r ∈ pending (s.conns b) → r ∈ pending (s.conns b') → b = b')
    (hsnt : ∀ b r, r ∈ pending (s.conns b) → ∃ c, (b, c) ∈ s.sent ∧ c.reply = some r) (b : BrokerAddress) : Wait (endConn s b) := by
  have hdone : ∀ r x, (r, x) ∈ (Sys.endConn s b).replyDone → (r, x) ∈ s.replyDone ∨
      (x = .cancelled ∧ r ∈ (s.conns b).resolver.map (·.2)) := by
    intro r x hx
    simp only [Sys.endConn, List.mem_append, List.mem_map, Prod.mk.injEq] at hx
    rcases hx with hx | ⟨p, hp, rfl, rfl⟩
    · exact .inl hx
    · exact .inr ⟨rfl, List.mem_map.mpr ⟨p, hp, rfl⟩⟩
  have hres : ∀ r, r ∈ (s.conns b).resolver.map (·.2) → r ∈ pending (s.conns b) := fun r hr => List.mem_append_right _ hr
  refine ⟨?_, ?_, ?_, ?_⟩
  · intro x hx
    rw [endConn_conns] at hx ⊢
    split at hx
    · simp at hx
    · rename_i hxb
      rw [if_neg hxb]
      rcases h.live x hx with h0 | ⟨r, h1, h2, h3⟩
      · exact .inl h0
      · refine .inr ⟨r, h1, fun y hy => ?_, h3⟩
        rcases hdone r y hy with hy | ⟨_, hy⟩
        · exact h2 y hy
        · exact hxb (hu x b r (by rw [h1]; simp) (hres r hy))
  · intro r x hm
    have hm : s.mode = .awaitConnect r x := hm
    rcases h.await r x hm with hp | ⟨y, hy⟩
    · by_cases hxb : x = b
      · subst hxb
        unfold pending at hp
        rw [List.mem_append] at hp
        rcases hp with hp | hp
        · left; rw [endConn_conns, if_pos rfl]; exact List.mem_append_left _ hp
        · right
          refine ⟨.cancelled, ?_⟩
          obtain ⟨p, hp', rfl⟩ := List.mem_map.mp hp
          simp only [Sys.endConn, List.mem_append, List.mem_map]
          exact .inr ⟨p, hp', rfl⟩
      · left; rw [endConn_conns, if_neg hxb]; exact hp
    · right; exact ⟨y, by simp only [Sys.endConn, List.mem_append]; exact .inl hy⟩
  · intro x hx
    rw [endConn_conns] at hx ⊢
    split
    · rfl
    · rename_i hxb; rw [if_neg hxb] at hx; exact h.dead x hx
  · intro r hr
    rcases hdone r _ hr with hr | ⟨_, hr⟩
    · obtain ⟨b', c', h1, h2, h3⟩ := h.cancelled r hr
      refine ⟨b', c', h1, h2, ?_⟩
      rw [endConn_conns]; split
      · rfl
      · exact h3
    · obtain ⟨c, h1, h2⟩ := hsnt b r (hres r hr)
      exact ⟨b, c, h1, h2, by rw [endConn_conns, if_pos rfl]⟩

theorem done_lt {cfg : Cfg} {s : State} (hr : Reachable cfg s) (h : Wait s) {r : Nat} {x : TokResult} (hx : (r, x) ∈ s.replyDone) :
    r < s.nextReply := by
  cases x with
  | resolved e =>
    obtain ⟨b, c, h1, h2, _⟩ := (rep hr).done r e hx
    exact ((rep hr).sentOk b c h1 r h2).1
  | cancelled =>
    obtain ⟨b, c, h1, h2, _⟩ := h.cancelled r hx
    exact ((rep hr).sentOk b c h1 r h2).1

theorem Wait.step {cfg : Cfg} {s s' : State} {a : Act} (hr : Reachable cfg s) (h : Wait s) (hs : step cfg s a = some s') : Wait s' := by
  have hcn := conn hr
  have hst := step_cases hs
  clear hs
  have same : ∀ b : BrokerAddress, (s.conns b).alive = (s.conns b).alive ∧ pending (s.conns b) = pending (s.conns b) ∧
    (s.conns b).resolver = (s.conns b).resolver := fun _ => ⟨rfl, rfl, rfl⟩
  cases hst with
  | startOk net hm s2 h2 =>
    rcases h2 with ⟨rfl, hb⟩ | ⟨hb, rfl⟩
    · exact h.congr same (List.prefix_refl _) rfl (.inr (.inr ⟨⟨rfl, by simp [hm]⟩, by simp [hm]⟩))
    · refine h.congr ?_ (List.prefix_refl _) rfl (.inr (.inr ⟨⟨rfl, by simp [hm]⟩, by simp [hm]⟩))
      intro x
      rw [show ({ dialed s cfg.config.brokerAddress with mode := .idle } : State).conns = s.conns from dialed_conns_eq hcn hb]
      exact same x
  | startFail | outGone | inLost | regClosedStop | noConn | connectLost => exact h.stop
  | regFail i q hm hcc hq hl =>
    apply Wait.stop
    exact h.congr same (List.prefix_refl _) rfl (.inl rfl)
  | out i auth net cmd q s' hm hv ha hq he =>
    have hc1 : Conn (takeCmd s i cmd q) := by apply hcn.congr <;> simp
    have h1 : Wait (takeCmd s i cmd q) := h.congr (fun x => by simp) (by simp) (by simp) (.inl (by simp))
    cases he with
    | failed => exact h1.stop
    | lost c c2 b s3 hcc h2 hb hp =>
      apply Wait.stop
      exact h1.congr (fun x => by rw [hp.conns hc1]; exact ⟨rfl, rfl, rfl⟩) (by rw [hp.sent]; exact List.prefix_refl _) hp.replyDone (.inl hp.mode)
    | sent j hn hj ha hl => exact h1.pushed _ rfl
    | connecting c c2 b s3 j hcc h2 hb hp hj ha hl =>
      have h3 : Wait s3 := h1.congr (fun x => by rw [hp.conns hc1]; exact ⟨rfl, rfl, rfl⟩) (by rw [hp.sent]; exact List.prefix_refl _) hp.replyDone (.inl hp.mode)
      have hidle : s3.mode = .idle := by rw [hp.mode]; simpa using hm
      have hnone : ∀ x, (s3.conns x).alive = true → pending (s3.conns x) = [] := by
        intro x hx
        rcases h3.live x hx with h0 | ⟨r, _, _, h4 | h4⟩
        · exact h0
        · rw [hidle] at h4; simp at h4
        · rw [hidle] at h4; simp at h4
      have hfresh : ∀ x, (s3.nextReply, x) ∉ s3.replyDone := by
        intro x hx
        rw [hp.replyDone] at hx
        have := done_lt hr h (x := x) (r := s3.nextReply) (by simpa using hx)
        rw [hp.nextReply] at this
        simp at this
      generalize hbr : (s3.clients j).broker = br at *
      have hpush : pending ((Sys.pushed s3 br ⟨.connect c2, some s3.nextReply, some (i, cmd)⟩).conns br) = [s3.nextReply] := by
        have := hnone br hl
        simp only [pending, List.append_eq_nil_iff] at this
        simp [pending, Sys.pushed, setConn_conns, this.1, List.map_eq_nil_iff.mp this.2]
      refine ⟨?_, ?_, ?_, ?_⟩
      · intro x hx
        simp only [pushed_conns_alive] at hx
        simp only
        by_cases hxb : x = br
        · subst hxb
          exact .inr ⟨s3.nextReply, hpush, hfresh, .inl rfl⟩
        · left
          rw [pushed_pending s3 br x _ (.inl hxb)]
          exact hnone x hx
      · intro r x hmode
        simp only [Mode.awaitConnect.injEq] at hmode
        obtain ⟨rfl, rfl⟩ := hmode
        left; simp only; rw [hpush]; simp
      · intro x hx
        simp only [pushed_conns_alive] at hx
        simp only [pushed_conns_resolver]
        exact h3.dead x hx
      · intro r hrd
        simp only [pushed_replyDone] at hrd
        obtain ⟨b', c', h4, h5, h6⟩ := h3.cancelled r hrd
        exact ⟨b', c', by simp [Sys.pushed, h4], h5, by simpa using h6⟩
  | inb b e q s' hm ha hv hq he =>
    have h1 : Wait (takeEvent s b e q) :=
      h.congr (fun x => by
        unfold takeEvent
        rw [setConn_conns]
        split
        · rename_i hx; subst hx; exact ⟨rfl, rfl, rfl⟩
        · exact ⟨rfl, rfl, rfl⟩) (List.prefix_refl _) rfl (.inl rfl)
    cases he with
    | pingFailed hping =>
      apply Wait.stop
      exact h1.congr (fun x => ⟨rfl, rfl, rfl⟩) (List.prefix_refl _) rfl (.inl rfl)
    | ping hping _ _ =>
      apply Wait.pushed
      · exact h1.congr (fun x => ⟨rfl, rfl, rfl⟩) (List.prefix_refl _) rfl (.inl rfl)
      · rfl
    | other _ => exact h1.congr (fun x => by simp) (by simp) (by simp) (.inl (by simp))
  | connectOk r b x e hm hf =>
    have hx : x = r := by have := List.find?_some hf; simpa using this
    subst hx
    refine h.congr (fun x => by simp) (by simp) (by simp) (.inr (.inr ⟨⟨by simp, ?_⟩, by simp [hm]⟩))
    intro r' b' hm'
    rw [hm] at hm'
    simp only [Mode.awaitConnect.injEq] at hm'
    obtain ⟨rfl, rfl⟩ := hm'
    exact ⟨_, List.mem_of_find?_eq_some hf⟩
  | cmdEnd b w hl ha hq hm => exact h.endConn (fun b b' r => pending_unique hr) (fun b r => pending_sent hr) b
  | cmdOk b c q hl ha hq =>
    have h1 := (h.connTake hr hl hq).1
    refine h1.congr (fun x => ?_) (List.prefix_refl _) rfl (.inl rfl)
    simp only [setConn_conns]
    split
    · rename_i hx; subst hx; exact ⟨rfl, rfl, rfl⟩
    · exact ⟨rfl, rfl, rfl⟩
  | cmdFail b c q hl ha hq => exact (h.connTake hr hl hq).1
  | cmdPanic b c q hl ha hq =>
    obtain ⟨h1, h2, _⟩ := h.connTake hr hl hq
    refine h1.endConn ?_ ?_ b
    · intro b b' r hp hp'
      rw [h2] at hp hp'
      exact pending_unique hr hp hp'
    · intro b r hp
      rw [h2] at hp
      simpa using pending_sent hr hp
  | readEnd b x hl ha hx => exact h.endConn (fun b b' r => pending_unique hr) (fun b r => pending_sent hr) b
  | readConnected b v t inb r res hl ha hv hres =>
    obtain ⟨k, hk, hf, rfl⟩ := tryResolve_some hres
    have hmem := mem_find hf
    have hpr : r ∈ pending (s.conns b) := List.mem_append_right _ (List.mem_map.mpr ⟨_, hmem, rfl⟩)
    obtain ⟨hp, hnd, hmd⟩ : pending (s.conns b) = [r] ∧ (∀ x, (r, x) ∉ s.replyDone) ∧ (s.mode = .awaitConnect r b ∨ s.mode = .stopped) := by
      rcases h.live b hl with h0 | ⟨r', h1, h2, h3⟩
      · rw [h0] at hpr; simp at hpr
      · rw [h1] at hpr
        simp only [List.mem_singleton] at hpr
        subst hpr; exact ⟨h1, h2, h3⟩
    have hq0 : (s.conns b).queue.filterMap (·.reply) = [] ∧ (s.conns b).resolver = [(k, r)] := by
      have hlen := congrArg List.length hp
      simp only [pending, List.length_append, List.length_map, List.length_cons, List.length_nil] at hlen
      have hpos := List.length_pos_of_mem hmem
      have h1 : (s.conns b).queue.filterMap (·.reply) = [] := List.length_eq_zero_iff.mp (by omega)
      obtain ⟨y, hy⟩ := List.length_eq_one_iff.mp (show (s.conns b).resolver.length = 1 by omega)
      rw [hy] at hmem
      simp only [List.mem_singleton] at hmem
      exact ⟨h1, by rw [hy, hmem]⟩
    have her : (s.conns b).resolver.erase k = [] := by
      rw [hq0.2]; simp [Resolver.erase]
    refine ⟨?_, ?_, ?_, ?_⟩
    · intro x hx
      simp only [setConn_conns] at hx ⊢
      split
      · left; simp [pending, hq0.1, her]
      · rename_i hxb
        rw [if_neg hxb] at hx
        rcases h.live x hx with h0 | ⟨r', h1, h2, h3⟩
        · exact .inl h0
        · refine .inr ⟨r', h1, fun y hy => ?_, h3⟩
          simp only [List.mem_append, List.mem_singleton, Prod.mk.injEq] at hy
          rcases hy with hy | ⟨rfl, _⟩
          · exact h2 y hy
          · exact hxb (pending_unique hr (by rw [h1]; simp) hpr)
    · intro r' x hm'
      have hm' : s.mode = .awaitConnect r' x := hm'
      simp only [setConn_conns]
      rcases h.await r' x hm' with hp' | ⟨y, hy⟩
      · by_cases hxb : x = b
        · subst hxb
          rw [hp] at hp'
          simp only [List.mem_singleton] at hp'
          subst hp'
          right; exact ⟨_, List.mem_append_right _ (List.mem_singleton.mpr rfl)⟩
        · left; rw [if_neg hxb]; exact hp'
      · right; exact ⟨y, List.mem_append_left _ hy⟩
    · intro x hx
      simp only [setConn_conns] at hx ⊢
      split
      · exact her
      · rename_i hxb; rw [if_neg hxb] at hx; exact h.dead x hx
    · intro r' hr'
      simp only [List.mem_append, List.mem_singleton, Prod.mk.injEq, reduceCtorEq, and_false, or_false] at hr'
      obtain ⟨b', c', h1, h2, h3⟩ := h.cancelled r' hr'
      refine ⟨b', c', h1, h2, ?_⟩
      simp only [setConn_conns]; split
      · rename_i hb; subst hb; exact h3
      · exact h3
  | readForward b v t inb hl ha hv hres hm =>
    refine h.congr (fun x => ?_) (List.prefix_refl _) rfl (.inl rfl)
    simp only [setConn_conns]; split
    · rename_i hx; subst hx; exact ⟨rfl, rfl, rfl⟩
    · exact ⟨rfl, rfl, rfl⟩
  | readSkip => exact h
  | _ => exact h.congr (fun _ => ⟨rfl, rfl, rfl⟩) (List.prefix_refl _) rfl (.inl rfl)

theorem wait {cfg : Cfg} {s : State} (h : Reachable cfg s) : Wait s :=
  h.induct (Wait.init cfg) fun _ _ _ hr hp hs => Wait.step hr hp hs

end Neutron.Sys
