import Verif.Proof.SysReq

/-!
# Connections: what goes in, what comes out
-/

namespace Neutron.Sys

open Neutron

/-- The commands put on connection `b`'s channel, in order. -/
def sentTo (l : List (BrokerAddress × ConnCmd)) (b : BrokerAddress) : List ConnCmd :=
  l.filterMap fun p => if p.1 = b then some p.2 else none

theorem sentTo_append (l l' : List (BrokerAddress × ConnCmd)) (b : BrokerAddress) :
    sentTo (l ++ l') b = sentTo l b ++ sentTo l' b := List.filterMap_append

theorem sentTo_single (a b : BrokerAddress) (c : ConnCmd) : sentTo [(a, c)] b = if a = b then [c] else [] := by
  unfold sentTo
  by_cases h : a = b <;> simp [h]

theorem mem_sentTo {l : List (BrokerAddress × ConnCmd)} {b : BrokerAddress} {c : ConnCmd} :
    c ∈ sentTo l b ↔ (b, c) ∈ l := by
  unfold sentTo
  rw [List.mem_filterMap]
  constructor
  · rintro ⟨⟨a, d⟩, hp, h⟩
    simp only at h
    split at h
    · rename_i hab; simp only [Option.some.injEq] at h; subst hab; subst h; exact hp
    · exact absurd h (by simp)
  · intro h; exact ⟨(b, c), h, by simp⟩

/-- A connection's channels: nothing lost, duplicated or reordered. -/
structure ConnOk (c : ConnSt) : Prop where
  fifo : c.accepted = c.processed ++ c.queue
  written : c.written.Sublist c.processed
  events : c.reads = c.dispatched ++ c.outbox

/-- All connections are in order; commands in their channels were put there by the engine. -/
structure Conn (s : State) : Prop where
  ok : ∀ b, ConnOk (s.conns b)
  unused : ∀ b, b ∉ s.addrs → s.conns b = freshConn
  accepted : ∀ b, (s.conns b).accepted = sentTo s.sent b

theorem Conn.congr {s s' : State} (h : Conn s) (ha : s'.addrs = s.addrs) (hc : s'.conns = s.conns) (hs : s'.sent = s.sent) :
    Conn s' := ⟨by rw [hc]; exact h.ok, by rw [hc, ha]; exact h.unused, by rw [hc, hs]; exact h.accepted⟩

theorem freshConn_ok : ConnOk freshConn := ⟨rfl, List.Sublist.refl _, rfl⟩

/-- Changing one existing connection. -/
theorem Conn.update {s s' : State} (h : Conn s) {b : BrokerAddress} (hb : b ∈ s.addrs) (ha : s'.addrs = s.addrs)
    (hc : ∀ x, x ≠ b → s'.conns x = s.conns x) (hs : s'.sent = s.sent) (ho : ConnOk (s'.conns b))
    (hacc : (s'.conns b).accepted = (s.conns b).accepted) : Conn s' := by
  refine ⟨fun x => ?_, fun x hx => ?_, fun x => ?_⟩
  · by_cases hxb : x = b
    · rw [hxb]; exact ho
    · rw [hc x hxb]; exact h.ok x
  · rw [ha] at hx
    have : x ≠ b := fun h => hx (h ▸ hb)
    rw [hc x this]; exact h.unused x hx
  · rw [hs]
    by_cases hxb : x = b
    · rw [hxb, hacc]; exact h.accepted b
    · rw [hc x hxb]; exact h.accepted x

theorem Conn.pushed {s : State} (h : Conn s) {b : BrokerAddress} (hb : b ∈ s.addrs) (c : ConnCmd) : Conn (pushed s b c) := by
  refine ⟨fun x => ?_, fun x hx => ?_, fun x => ?_⟩
  · simp only [Sys.pushed, setConn_conns]
    split
    · rename_i hxb; subst hxb
      exact ⟨by simp [(h.ok x).fifo], (h.ok x).written, (h.ok x).events⟩
    · exact h.ok x
  · simp only [pushed_addrs] at hx
    have hxb : x ≠ b := fun h => hx (h ▸ hb)
    simp only [Sys.pushed, setConn_conns, if_neg hxb]; exact h.unused x hx
  · simp only [Sys.pushed, setConn_conns, sentTo_append, sentTo_single]
    by_cases hxb : x = b
    · subst hxb; simp [h.accepted x]
    · simp [hxb, Ne.symm hxb, h.accepted x]

theorem Conn.dialed {s : State} (h : Conn s) {b : BrokerAddress} (hb : b ∉ s.addrs) : Conn (dialed s b) := by
  have e : ∀ x, (Sys.dialed s b).conns x = s.conns x := by
    intro x; rw [dialed_conns]; split
    · rename_i hx; subst hx; exact (h.unused x hb).symm
    · rfl
  refine ⟨fun x => by rw [e]; exact h.ok x, fun x hx => ?_, fun x => by rw [e, dialed_sent]; exact h.accepted x⟩
  rw [e]; apply h.unused; intro hm; apply hx; simp [Sys.dialed, hm]

theorem dialed_conns_eq {s : State} (h : Conn s) {b : BrokerAddress} (hb : b ∉ s.addrs) : (dialed s b).conns = s.conns := by
  funext x; rw [dialed_conns]; split
  · rename_i hx; subst hx; exact (h.unused x hb).symm
  · rfl

theorem Conn.prep {cfg : Cfg} {s s3 : State} {i : Nat} {c c2 : Connect} {b : BrokerAddress} (h : Conn s)
    (hp : Prep cfg s i c c2 b s3) : Conn s3 := by
  cases hp with
  | intro s2 hd hb =>
    have h2 : Conn s2 := by
      rcases hd with rfl | ⟨hm, rfl⟩
      · exact h
      · exact h.dialed hm
    split
    · apply h2.congr <;> simp
    · exact h2

theorem Prep.conns {cfg : Cfg} {s s3 : State} {i : Nat} {c c2 : Connect} {b : BrokerAddress} (hp : Prep cfg s i c c2 b s3)
    (h : Conn s) : s3.conns = s.conns := by
  cases hp with
  | intro s2 hd hb =>
    have : s2.conns = s.conns := by
      rcases hd with rfl | ⟨hm, rfl⟩
      · rfl
      · exact dialed_conns_eq h hm
    rw [← this]; split <;> simp

theorem Conn.init (cfg : Cfg) : Conn (init cfg) := ⟨fun _ => freshConn_ok, fun _ _ => rfl, fun _ => rfl⟩

theorem endConn_conns (s : State) (b x : BrokerAddress) :
    (endConn s b).conns x = if x = b then { s.conns b with alive := false, resolver := [] } else s.conns x := rfl

theorem ConnOk.take {s : State} (h : Conn s) {b : BrokerAddress} {c : ConnCmd} {q : List ConnCmd}
    (hq : (s.conns b).queue = c :: q) : ConnOk ((connTake s b c q).conns b) := by
  rw [connTake_conns, if_pos rfl]
  exact ⟨by simp [(h.ok b).fifo, hq], ((h.ok b).written).trans (List.sublist_append_left ..), (h.ok b).events⟩

theorem Conn.step {cfg : Cfg} {s s' : State} {a : Act} (h : Conn s) (hs : step cfg s a = some s') : Conn s' := by
  have hst := step_cases hs
  clear hs
  cases hst with
  | startOk net hm s2 h2 =>
    rcases h2 with ⟨rfl, hb⟩ | ⟨hb, rfl⟩
    · apply h.congr <;> rfl
    · apply (h.dialed hb).congr <;> rfl
  | out i auth net cmd q s' hm hv ha hq he =>
    have h1 : Conn (takeCmd s i cmd q) := by apply h.congr <;> simp
    cases he with
    | failed => apply h1.congr <;> simp
    | lost c c2 b s3 hc h2 hb hp => apply (h1.prep hp).congr <;> simp
    | sent j hn hj ha hl => exact h1.pushed ha _
    | connecting c c2 b s3 j hc h2 hb hp hj ha hl => apply ((h1.prep hp).pushed ha _).congr <;> rfl
  | inb b e q s' hm ha hv hq he =>
    have h1 : Conn (takeEvent s b e q) := by
      refine h.update ha rfl (fun x hx => by simp [takeEvent, setConn_conns, hx]) rfl ?_ (by simp)
      simp only [takeEvent, setConn_conns, if_pos]
      exact ⟨(h.ok b).fifo, (h.ok b).written, by simp [(h.ok b).events, hq]⟩
    cases he with
    | pingFailed _ => apply h1.congr <;> simp
    | ping _ ha2 _ =>
      have h2 : Conn { takeEvent s b e q with dispatches := (takeEvent s b e q).dispatches ++ [⟨b, e, false, .pong⟩] } := by
        apply h1.congr <;> simp
      exact h2.pushed ha2 _
    | other _ => apply h1.congr <;> simp
  | cmdEnd b w hl ha hq hm =>
    refine h.update ha rfl (fun x hx => by simp [endConn_conns, hx]) rfl ?_ (by simp)
    rw [endConn_conns, if_pos rfl]; exact ⟨(h.ok b).fifo, (h.ok b).written, (h.ok b).events⟩
  | readEnd b x hl ha hx =>
    refine h.update ha rfl (fun x hx => by simp [endConn_conns, hx]) rfl ?_ (by simp)
    rw [endConn_conns, if_pos rfl]; exact ⟨(h.ok b).fifo, (h.ok b).written, (h.ok b).events⟩
  | cmdFail b c q hl ha hq =>
    exact h.update ha (by simp) (fun x hx => by simp [connTake_conns, hx]) (by simp) (ConnOk.take h hq) (by simp)
  | cmdOk b c q hl ha hq =>
    refine h.update ha (by simp) (fun x hx => by simp [setConn_conns, connTake_conns, hx]) (by simp) ?_
      (by simp [setConn_conns])
    have := ConnOk.take h hq
    simp only [setConn_conns, if_pos]
    refine ⟨this.fifo, ?_, this.events⟩
    simp only [connTake_conns, if_pos]
    exact (h.ok b).written.append (List.Sublist.refl _)
  | cmdPanic b c q hl ha hq =>
    refine h.update ha (by simp) (fun x hx => by simp [endConn_conns, connTake_conns, hx]) (by simp) ?_ (by simp)
    have := ConnOk.take h hq
    rw [endConn_conns, if_pos rfl]; exact ⟨this.fifo, this.written, this.events⟩
  | readConnected b v t inb r res hl ha hv hr =>
    refine h.update ha rfl (fun x hx => by simp [setConn_conns, hx]) rfl ?_ (by simp [setConn_conns])
    simp only [setConn_conns, if_pos]; exact ⟨(h.ok b).fifo, (h.ok b).written, (h.ok b).events⟩
  | readForward b v t inb hl ha hv hr hm =>
    refine h.update ha rfl (fun x hx => by simp [setConn_conns, hx]) rfl ?_ (by simp [setConn_conns])
    simp only [setConn_conns, if_pos]
    exact ⟨(h.ok b).fifo, (h.ok b).written, by simp [(h.ok b).events]⟩
  | _ => apply h.congr <;> simp

theorem conn {cfg : Cfg} {s : State} (h : Reachable cfg s) : Conn s :=
  h.induct (Conn.init cfg) fun _ _ _ _ hp hs => Conn.step hp hs

/-! ## The engine's own waits for a `Connect` -/

/-- Reply `r` was asked for on connection `b`, for client `i`'s request `t`. -/
def Asked (s : State) (r : Nat) (b : BrokerAddress) (i : Nat) (cmd : ClientCmd) : Prop :=
  ∃ c, (b, c) ∈ s.sent ∧ c.reply = some r ∧ c.origin = some (i, cmd)

/-- The engine's waits. -/
structure Rep (s : State) : Prop where
  sentOk : ∀ b c, (b, c) ∈ s.sent → ∀ r, c.reply = some r → r < s.nextReply ∧ (∃ c2, c.out = .connect c2) ∧ c.origin.isSome
  uniq : ∀ b c b' c', (b, c) ∈ s.sent → (b', c') ∈ s.sent → c.reply.isSome → c.reply = c'.reply →
    b = b' ∧ c.origin = c'.origin
  waiting : ∀ b k r, (k, r) ∈ (s.conns b).resolver → k = .connect ∧ ∃ c, (b, c) ∈ s.sent ∧ c.reply = some r
  done : ∀ r e, (r, TokResult.resolved e) ∈ s.replyDone →
    ∃ b c, (b, c) ∈ s.sent ∧ c.reply = some r ∧ e ∈ (s.conns b).connected
  connected : ∀ b e, e ∈ (s.conns b).connected → e.inb = .connected
  mode : ∀ r b, s.mode = .awaitConnect r b →
    ∃ c i cmd t, (b, c) ∈ s.sent ∧ c.reply = some r ∧ c.origin = some (i, cmd) ∧ (∀ t', cmd.tok = some t' → t' = t) ∧
      (cmd.tok.isSome → s.resolver.find .connect = some t)
  via : ∀ d, d ∈ s.dispatches → d.viaConnect = true → d.event ∈ (s.conns d.broker).connected

theorem Rep.init (cfg : Cfg) : Rep (init cfg) := by
  refine ⟨?_, ?_, ?_, ?_, ?_, ?_, ?_⟩ <;> simp [Sys.init, freshConn]

theorem Rep.congr {s s' : State} (h : Rep s) (hc : s'.conns = s.conns) (hs : s'.sent = s.sent)
    (hn : s'.nextReply = s.nextReply) (hd : s'.replyDone = s.replyDone)
    (hm : s'.mode = s.mode ∨ ∀ r b, s'.mode ≠ .awaitConnect r b)
    (hr : s'.resolver = s.resolver ∨ ∀ r b, s'.mode ≠ .awaitConnect r b)
    (hv : ∀ d, d ∈ s'.dispatches → d ∈ s.dispatches ∨ d.viaConnect = false) : Rep s' := by
  refine ⟨by rw [hs, hn]; exact h.sentOk, by rw [hs]; exact h.uniq, by rw [hc, hs]; exact h.waiting,
    by rw [hd, hc, hs]; exact h.done, by rw [hc]; exact h.connected, ?_, ?_⟩
  · intro r b hmode
    rcases hm with hm | hm
    · rcases hr with hr | hr
      · rw [hs, hr]; rw [hm] at hmode; exact h.mode r b hmode
      · exact absurd hmode (hr r b)
    · exact absurd hmode (hm r b)
  · intro d hd hvia
    rw [hc]
    rcases hv d hd with hd | hd
    · exact h.via d hd hvia
    · rw [hd] at hvia; exact absurd hvia (by simp)

theorem Rep.stop {s : State} (h : Rep s) : Rep (stop s) :=
  h.congr rfl rfl rfl rfl (.inr (by simp)) (.inr (by simp)) (fun d hd => .inl hd)

theorem managerSend_dispatches (s : State) (e : Event) (b : BrokerAddress) (v : Bool) :
    ∃ dest, (managerSend s e b v).dispatches = s.dispatches ++ [⟨b, e, v, dest⟩] := by
  unfold managerSend
  split
  · exact ⟨_, rfl⟩
  · exact ⟨_, rfl⟩

theorem Rep.managerSend {s : State} (h : Rep s) (hm : s.mode = .idle) (e : Event) (b : BrokerAddress) (v : Bool)
    (hv : v = true → e ∈ (s.conns b).connected) : Rep (managerSend s e b v) := by
  obtain ⟨dest, hd⟩ := managerSend_dispatches s e b v
  refine ⟨by simpa using h.sentOk, by simpa using h.uniq, by simpa using h.waiting, by simpa using h.done,
    by simpa using h.connected, by simp [hm], ?_⟩
  intro d hd' hvia
  rw [hd] at hd'
  simp only [managerSend_conns]
  simp only [List.mem_append, List.mem_singleton] at hd'
  rcases hd' with hd' | rfl
  · exact h.via d hd' hvia
  · exact hv hvia

theorem Rep.pushed {s : State} (h : Rep s) (hm : s.mode = .idle) {b : BrokerAddress} {c : ConnCmd} (hc : c.reply = none) :
    Rep (pushed s b c) := by
  refine ⟨?_, ?_, ?_, ?_, by simpa using h.connected, by simp [hm], by simpa using h.via⟩
  · intro b' c' hm' r hr
    simp only [Sys.pushed, List.mem_append, List.mem_singleton, Prod.mk.injEq] at hm'
    rcases hm' with hm' | ⟨rfl, rfl⟩
    · exact h.sentOk b' c' hm' r hr
    · rw [hc] at hr; exact absurd hr (by simp)
  · intro b1 c1 b2 c2 h1 h2 hs he
    simp only [Sys.pushed, List.mem_append, List.mem_singleton, Prod.mk.injEq] at h1 h2
    rcases h1 with h1 | ⟨rfl, rfl⟩
    · rcases h2 with h2 | ⟨rfl, rfl⟩
      · exact h.uniq b1 c1 b2 c2 h1 h2 hs he
      · rw [he, hc] at hs; exact absurd hs (by simp)
    · rw [hc] at hs; exact absurd hs (by simp)
  · intro x k r hx
    simp only [pushed_conns_resolver] at hx
    obtain ⟨hk, c', h1, h2⟩ := h.waiting x k r hx
    exact ⟨hk, c', by simp [Sys.pushed, h1], h2⟩
  · intro r e hx
    simp only [pushed_replyDone] at hx
    obtain ⟨b', c', h1, h2, h3⟩ := h.done r e hx
    exact ⟨b', c', by simp [Sys.pushed, h1], h2, by simpa using h3⟩

/-! ## Resolvers are maps -/

/-- No two entries with the same key. -/
def IsMap (r : Resolver) : Prop := (r.map (·.1)).Nodup

theorem erase_not_mem {r : Resolver} {k : Key} (hn : IsMap r) {p : Key × Nat} (hp : p ∈ r.erase k) : p.1 ≠ k := by
  intro hpk
  have hmem := List.mem_of_mem_eraseP hp
  induction r with
  | nil => simp at hmem
  | cons a r ih =>
    simp only [IsMap, List.map_cons, List.nodup_cons] at hn
    simp only [Resolver.erase, List.eraseP_cons] at hp
    by_cases hak : (a.1 == k) = true
    · simp only [hak, cond_true] at hp
      simp only [beq_iff_eq] at hak
      apply hn.1; rw [hak, ← hpk]; exact List.mem_map_of_mem hp
    · have hak' : (a.1 == k) = false := by simpa using hak
      simp only [hak', cond_false, List.mem_cons] at hp
      rcases hp with rfl | hp
      · simp [hpk] at hak'
      · exact ih hn.2 hp (List.mem_of_mem_eraseP hp)

theorem IsMap.erase {r : Resolver} (h : IsMap r) (k : Key) : IsMap (r.erase k) :=
  List.Nodup.sublist ((List.eraseP_sublist).map _) h

theorem IsMap.put {r : Resolver} (h : IsMap r) (o : Outbound) (t : Nat) : IsMap (r.put o t).1 := by
  unfold Resolver.put
  cases o.tryKey with
  | none => exact h
  | some k =>
    simp only [IsMap, List.map_append, List.map_cons, List.map_nil]
    refine List.nodup_append.mpr ⟨h.erase k, by simp, ?_⟩
    intro a ha b hb hab
    simp only [List.mem_singleton] at hb
    obtain ⟨p, hp, rfl⟩ := List.mem_map.mp ha
    exact erase_not_mem h hp (hab.trans hb)

theorem find_erase_self {r : Resolver} (h : IsMap r) (k : Key) : (r.erase k).find k = none := by
  unfold Resolver.find
  have : List.find? (fun p => p.1 == k) (r.erase k) = none := by
    rw [List.find?_eq_none]
    intro p hp hpk
    simp only [beq_iff_eq] at hpk
    exact erase_not_mem h hp hpk
  rw [this]; rfl

theorem find_erase_ne (r : Resolver) {k k' : Key} (h : k' ≠ k) : (r.erase k).find k' = r.find k' := by
  unfold Resolver.find Resolver.erase
  congr 1
  induction r with
  | nil => rfl
  | cons a r ih =>
    simp only [List.eraseP_cons, List.find?_cons]
    by_cases hak : (a.1 == k) = true
    · have : (a.1 == k') = false := by
        simp only [beq_iff_eq] at hak; simp only [beq_eq_false_iff_ne, ne_eq, hak]; exact fun h' => h h'.symm
      simp [hak, this]
    · have hak' : (a.1 == k) = false := by simpa using hak
      simp only [hak', cond_false, List.find?_cons, ih]

theorem find_append (r r' : Resolver) (k : Key) : Resolver.find (r ++ r') k = (r.find k).or (r'.find k) := by
  unfold Resolver.find
  rw [List.find?_append]
  cases List.find? (fun p => p.1 == k) r <;> simp

theorem find_put {r : Resolver} (h : IsMap r) {o : Outbound} (t : Nat) {k : Key} (hk : o.tryKey = some k) :
    (r.put o t).1.find k = some t := by
  unfold Resolver.put
  simp only [hk, find_append, find_erase_self h]
  simp [Resolver.find]

theorem find_put_ne (r : Resolver) {o : Outbound} (t : Nat) {k : Key} (hk : o.tryKey ≠ some k) :
    (r.put o t).1.find k = r.find k := by
  unfold Resolver.put
  cases ho : o.tryKey with
  | none => rfl
  | some k' =>
    have hne : k ≠ k' := by rintro rfl; exact hk ho
    have : Resolver.find [(k', t)] k = none := by simp [Resolver.find, Ne.symm hne]
    simp only [find_append, find_erase_ne r hne, this, Option.or_none]

theorem find_none_iff {r : Resolver} {k : Key} : r.find k = none ↔ ∀ t, (k, t) ∉ r := by
  unfold Resolver.find
  rw [Option.map_eq_none_iff, List.find?_eq_none]
  constructor
  · intro h t ht; exact h _ ht (by simp)
  · rintro h ⟨k', t⟩ hp hk; simp only [beq_iff_eq] at hk; subst hk; exact h t hp

theorem find_of_mem {r : Resolver} (h : IsMap r) {k : Key} {t : Nat} (hm : (k, t) ∈ r) : r.find k = some t := by
  cases hf : r.find k with
  | none => exact absurd hm (find_none_iff.mp hf t)
  | some t' =>
    have hm' := mem_find hf
    induction r with
    | nil => simp at hm
    | cons a r ih =>
      simp only [IsMap, List.map_cons, List.nodup_cons] at h
      simp only [List.mem_cons] at hm hm'
      have hin : ∀ x, (k, x) ∈ r → k ∈ r.map (·.1) := fun x hx => List.mem_map_of_mem (f := (·.1)) hx
      rcases hm with rfl | hm
      · rcases hm' with hm' | hm'
        · simp only [Prod.mk.injEq, true_and] at hm'; rw [hm']
        · exact absurd (hin _ hm') h.1
      · rcases hm' with rfl | hm'
        · exact absurd (hin _ hm) h.1
        · have hne : (a.1 == k) = false := by
            simp only [beq_eq_false_iff_ne, ne_eq]; rintro rfl; exact h.1 (hin _ hm)
          refine ih h.2 hm ?_ hm'
          simpa [Resolver.find, List.find?_cons, hne] using hf

/-- All resolvers are maps. -/
structure Maps (s : State) : Prop where
  engine : IsMap s.resolver
  conns : ∀ b, IsMap (s.conns b).resolver

theorem Maps.congr {s s' : State} (h : Maps s) (hr : s'.resolver = s.resolver) (hc : s'.conns = s.conns) : Maps s' :=
  ⟨by rw [hr]; exact h.engine, by rw [hc]; exact h.conns⟩

theorem Maps.stop {s : State} (h : Maps s) : Maps (stop s) := ⟨by simp [IsMap], h.conns⟩

theorem Maps.managerSend {s : State} (h : Maps s) (e : Event) (b : BrokerAddress) (v : Bool) : Maps (managerSend s e b v) := by
  refine ⟨?_, by simpa using h.conns⟩
  unfold Sys.managerSend
  split
  · rename_i t r hr
    obtain ⟨k, hk, hf, rfl⟩ := tryResolve_some hr
    exact h.engine.erase k
  · exact h.engine

theorem Maps.connTake {s : State} (h : Maps s) (b : BrokerAddress) (c : ConnCmd) (q : List ConnCmd) :
    Maps (connTake s b c q) := by
  refine ⟨by simpa using h.engine, fun x => ?_⟩
  rw [connTake_conns]
  split
  · simp only
    split
    · exact (h.conns b).put _ _
    · exact h.conns b
  · exact h.conns x

theorem Maps.endConn {s : State} (h : Maps s) (b : BrokerAddress) : Maps (endConn s b) := by
  refine ⟨by simpa using h.engine, fun x => ?_⟩
  rw [endConn_conns]
  split
  · simp [IsMap]
  · exact h.conns x

theorem Maps.step {cfg : Cfg} {s s' : State} {a : Act} (hc : Conn s) (h : Maps s) (hs : step cfg s a = some s') : Maps s' := by
  have hst := step_cases hs
  clear hs
  cases hst with
  | startOk net hm s2 h2 =>
    rcases h2 with ⟨rfl, hb⟩ | ⟨hb, rfl⟩
    · apply h.congr <;> rfl
    · apply h.congr
      · rfl
      · exact dialed_conns_eq hc hb
  | startFail | outGone | inLost | regClosedStop | noConn | connectLost => exact h.stop
  | regFail i q hm hcc hq hl =>
    apply Maps.stop; apply h.congr <;> rfl
  | out i auth net cmd q s' hm hv ha hq he =>
    have hc1 : Conn (takeCmd s i cmd q) := by apply hc.congr <;> simp
    have h1 : Maps (takeCmd s i cmd q) := by
      refine ⟨?_, by simpa using h.conns⟩
      rw [takeCmd_resolver]
      cases cmd.tok with
      | none => exact h.engine
      | some t => exact h.engine.put _ _
    cases he with
    | failed => exact h1.stop
    | lost c c2 b s3 hcc h2 hb hp => exact (h1.congr hp.resolver (hp.conns hc1)).stop
    | sent j hn hj ha hl => exact ⟨h1.engine, by simpa using h1.conns⟩
    | connecting c c2 b s3 j hcc h2 hb hp hj ha hl =>
      have h3 := h1.congr hp.resolver (hp.conns hc1)
      exact ⟨h3.engine, by simpa using h3.conns⟩
  | inb b e q s' hm ha hv hq he =>
    have h1 : Maps (takeEvent s b e q) := ⟨h.engine, by simpa using h.conns⟩
    cases he with
    | pingFailed _ =>
      apply Maps.stop
      exact h1.congr rfl rfl
    | ping _ _ _ => exact ⟨h1.engine, by simpa using h1.conns⟩
    | other _ => exact h1.managerSend _ _ _
  | connectOk r b x e hm hf => exact Maps.managerSend (h.congr (s' := { s with mode := .idle }) rfl rfl) _ _ _
  | cmdEnd b w hl ha hq hm => exact h.endConn b
  | cmdOk b c q hl ha hq =>
    have h1 := h.connTake b c q
    refine ⟨h1.engine, fun x => ?_⟩
    simp only [setConn_conns]; split
    · rename_i hx; exact h1.conns b
    · exact h1.conns x
  | cmdFail b c q hl ha hq => exact h.connTake b c q
  | cmdPanic b c q hl ha hq => exact (h.connTake b c q).endConn b
  | readEnd b x hl ha hx => exact h.endConn b
  | readConnected b v t inb r res hl ha hv hr =>
    obtain ⟨k, hk, hf, rfl⟩ := tryResolve_some hr
    refine ⟨h.engine, fun x => ?_⟩
    simp only [setConn_conns]; split
    · exact (h.conns b).erase k
    · exact h.conns x
  | readForward b v t inb hl ha hv hr hm =>
    refine ⟨h.engine, fun x => ?_⟩
    simp only [setConn_conns]; split
    · exact h.conns b
    · exact h.conns x
  | _ => apply h.congr <;> rfl

theorem maps {cfg : Cfg} {s : State} (h : Reachable cfg s) : Maps s :=
  h.induct ⟨by simp [init, IsMap], by simp [init, freshConn, IsMap]⟩ fun _ _ _ hr hp hs => Maps.step (conn hr) hp hs

/-! ## `Rep` is kept -/

theorem inbound_key_connect {i : Inbound} (h : i.tryKey = some .connect) : i = .connected := by
  cases i <;> simp [Inbound.tryKey] at h ⊢

theorem outbound_key_connect {o : Outbound} (h : o.tryKey = some .connect) : ∃ c, o = .connect c := by
  cases o <;> simp [Outbound.tryKey] at h ⊢

/-- Changing connections so that resolvers only lose entries or gain replies asked for, and replies are answered. -/
theorem Rep.conn {s s' : State} (h : Rep s) (hs : s'.sent = s.sent) (hn : s'.nextReply = s.nextReply)
    (hm : s'.mode = s.mode) (hr : s'.resolver = s.resolver) (hd : s'.dispatches = s.dispatches)
    (hw : ∀ b k r, (k, r) ∈ (s'.conns b).resolver → (k, r) ∈ (s.conns b).resolver ∨
      (k = .connect ∧ ∃ c, (b, c) ∈ s.sent ∧ c.reply = some r))
    (hc : ∀ b e, e ∈ (s.conns b).connected → e ∈ (s'.conns b).connected)
    (hc' : ∀ b e, e ∈ (s'.conns b).connected → e ∈ (s.conns b).connected ∨ e.inb = .connected)
    (hdone : ∀ r e, (r, TokResult.resolved e) ∈ s'.replyDone → (r, TokResult.resolved e) ∈ s.replyDone ∨
      ∃ b c, (b, c) ∈ s.sent ∧ c.reply = some r ∧ e ∈ (s'.conns b).connected) : Rep s' := by
  refine ⟨by rw [hs, hn]; exact h.sentOk, by rw [hs]; exact h.uniq, ?_, ?_, ?_, ?_, ?_⟩
  · intro b k r hx
    rw [hs]
    rcases hw b k r hx with hx | hx
    · exact h.waiting b k r hx
    · exact hx
  · intro r e hx
    rw [hs]
    rcases hdone r e hx with hx | hx
    · obtain ⟨b, c, h1, h2, h3⟩ := h.done r e hx
      exact ⟨b, c, h1, h2, hc _ _ h3⟩
    · exact hx
  · intro b e hx
    rcases hc' b e hx with hx | hx
    · exact h.connected b e hx
    · exact hx
  · rw [hm, hr, hs]; exact h.mode
  · rw [hd]; intro d hd hv; exact hc _ _ (h.via d hd hv)

theorem mem_append_cancelled' {l : List (Nat × TokResult)} {o : List Nat} {t : Nat} {e : Event}
    (h : (t, TokResult.resolved e) ∈ l ++ o.map fun t => (t, .cancelled)) : (t, TokResult.resolved e) ∈ l := by
  simpa using h

theorem Rep.connTake {s : State} (h : Rep s) (hcn : Conn s) {b : BrokerAddress} {c : ConnCmd} {q : List ConnCmd}
    (hq : (s.conns b).queue = c :: q) : Rep (connTake s b c q) := by
  have hsent : (b, c) ∈ s.sent := by
    rw [← mem_sentTo, ← hcn.accepted b, (hcn.ok b).fifo, hq]; simp
  refine h.conn (by simp) (by simp) (by simp) (by simp) (by simp) ?_ (by simp) (fun b e hx => .inl (by simpa using hx)) ?_
  · intro x k r hx
    rw [connTake_conns] at hx
    split at hx
    · rename_i hxb; subst hxb
      simp only at hx
      split at hx
      · rename_i r' hr'
        rcases mem_put hx with hx | ⟨hk, hr⟩
        · exact .inl hx
        · simp only at hr hk
          obtain ⟨_, ⟨c2, hc2⟩, _⟩ := h.sentOk x c hsent r' hr'
          rw [hc2] at hk
          simp only [Outbound.tryKey, Option.some.injEq] at hk
          exact .inr ⟨hk.symm, c, hsent, by rw [hr']; rw [hr]⟩
      · exact .inl hx
    · exact .inl hx
  · intro r e hx
    left
    unfold Sys.connTake at hx
    cases hr : c.reply with
    | none => rw [hr] at hx; exact hx
    | some r' => rw [hr] at hx; exact mem_append_cancelled' hx

theorem Rep.endConn {s : State} (h : Rep s) (b : BrokerAddress) : Rep (endConn s b) := by
  refine h.conn rfl rfl rfl rfl rfl ?_ (by simp) (fun b e hx => .inl (by simpa using hx)) ?_
  · intro x k r hx
    rw [endConn_conns] at hx
    split at hx
    · simp at hx
    · exact .inl hx
  · intro r e hx
    left
    have : (Sys.endConn s b).replyDone = s.replyDone ++ ((s.conns b).resolver.map (·.2)).map fun d => (d, .cancelled) := by
      simp only [Sys.endConn, List.map_map]; rfl
    rw [this] at hx
    exact mem_append_cancelled' hx

theorem Rep.step {cfg : Cfg} {s s' : State} {a : Act} (hcn : Conn s) (hmp : Maps s) (h : Rep s)
    (hs : step cfg s a = some s') : Rep s' := by
  have hst := step_cases hs
  clear hs
  cases hst with
  | startOk net hm s2 h2 =>
    rcases h2 with ⟨rfl, hb⟩ | ⟨hb, rfl⟩
    · exact h.congr rfl rfl rfl rfl (.inr (by simp)) (.inr (by simp)) (fun d hd => .inl hd)
    · exact h.congr (dialed_conns_eq hcn hb) rfl rfl rfl (.inr (by simp)) (.inr (by simp)) (fun d hd => .inl hd)
  | startFail | outGone | inLost | regClosedStop | noConn | connectLost => exact h.stop
  | regFail i q hm hcc hq hl =>
    apply Rep.stop
    exact h.congr rfl rfl rfl rfl (.inl rfl) (.inl rfl) (fun d hd => .inl hd)
  | out i auth net cmd q s' hm hv ha hq he =>
    have hc1 : Conn (takeCmd s i cmd q) := by apply hcn.congr <;> simp
    have h1 : Rep (takeCmd s i cmd q) :=
      h.congr (by simp) (by simp) (by simp) (by simp) (.inl (by simp)) (.inr (by simp [hm])) (fun d hd => .inl (by simpa using hd))
    cases he with
    | failed => exact h1.stop
    | lost c c2 b s3 hcc h2 hb hp =>
      apply Rep.stop
      exact h1.congr (hp.conns hc1) hp.sent hp.nextReply hp.replyDone (.inl hp.mode) (.inl hp.resolver)
        (fun d hd => .inl (by rw [hp.dispatches] at hd; exact hd))
    | sent j hn hj ha hl => exact h1.pushed (by simp [hm]) rfl
    | connecting c c2 b s3 j hcc h2 hb hp hj ha hl =>
      have h3 : Rep s3 := h1.congr (hp.conns hc1) hp.sent hp.nextReply hp.replyDone (.inl hp.mode) (.inl hp.resolver)
        (fun d hd => .inl (by rw [hp.dispatches] at hd; exact hd))
      generalize hbr : (s3.clients j).broker = br
      refine ⟨?_, ?_, ?_, ?_, by simpa using h3.connected, ?_, by simpa using h3.via⟩
      · intro b' c' hm' r hr
        simp only [Sys.pushed, List.mem_append, List.mem_singleton, Prod.mk.injEq] at hm'
        rcases hm' with hm' | ⟨rfl, rfl⟩
        · have := h3.sentOk b' c' hm' r hr
          exact ⟨by simp only; omega, this.2⟩
        · simp only [Option.some.injEq] at hr
          subst hr; exact ⟨by simp only; omega, ⟨c2, rfl⟩, rfl⟩
      · intro b1 c1 b2 c2' hh1 hh2 hsome heq
        simp only [Sys.pushed, List.mem_append, List.mem_singleton, Prod.mk.injEq] at hh1 hh2
        rcases hh1 with hh1 | ⟨rfl, rfl⟩
        · rcases hh2 with hh2 | ⟨rfl, rfl⟩
          · exact h3.uniq b1 c1 b2 c2' hh1 hh2 hsome heq
          · have := (h3.sentOk b1 c1 hh1 _ heq).1; omega
        · rcases hh2 with hh2 | ⟨rfl, rfl⟩
          · have := (h3.sentOk b2 c2' hh2 _ heq.symm).1; omega
          · exact ⟨rfl, rfl⟩
      · intro x k r hx
        simp only [pushed_conns_resolver] at hx
        obtain ⟨hk, c', h1, h2⟩ := h3.waiting x k r hx
        exact ⟨hk, c', by simp [Sys.pushed, h1], h2⟩
      · intro r e hx
        simp only [pushed_replyDone] at hx
        obtain ⟨b', c', h1, h2, h3⟩ := h3.done r e hx
        exact ⟨b', c', by simp [Sys.pushed, h1], h2, by simpa using h3⟩
      · intro r b' hmode
        simp only [Mode.awaitConnect.injEq] at hmode
        obtain ⟨rfl, rfl⟩ := hmode
        refine ⟨_, i, cmd, cmd.tok.getD 0, by simp only [Sys.pushed, List.mem_append, List.mem_singleton]; exact .inr rfl,
          rfl, rfl, fun t' ht => by simp [ht], fun hsome => ?_⟩
        simp only [pushed_resolver, hp.resolver, takeCmd_resolver]
        cases ht : cmd.tok with
        | none => simp [ht] at hsome
        | some t => exact find_put hmp.engine t (by rw [hcc]; rfl)
  | inb b e q s' hm ha hv hq he =>
    have h1 : Rep (takeEvent s b e q) :=
      h.conn rfl rfl rfl rfl rfl (fun x k r hx => .inl (by simpa using hx)) (by simp)
        (fun x e hx => .inl (by simpa using hx)) (fun r e hx => .inl hx)
    cases he with
    | pingFailed hping =>
      apply Rep.stop
      refine h1.congr rfl rfl rfl rfl (.inl rfl) (.inl rfl) (fun d hd => ?_)
      simp only [List.mem_append, List.mem_singleton] at hd
      rcases hd with hd | rfl
      · exact .inl hd
      · exact .inr rfl
    | ping hping _ _ =>
      apply Rep.pushed
      · refine h1.congr rfl rfl rfl rfl (.inl rfl) (.inl rfl) (fun d hd => ?_)
        simp only [List.mem_append, List.mem_singleton] at hd
        rcases hd with hd | rfl
        · exact .inl hd
        · exact .inr rfl
      · exact hm
      · rfl
    | other _ => exact h1.managerSend hm _ _ _ (by simp)
  | connectOk r b x e hm hf =>
    have h1 : Rep { s with mode := .idle } :=
      h.congr rfl rfl rfl rfl (.inr (by simp)) (.inr (by simp)) (fun d hd => .inl hd)
    refine h1.managerSend rfl e b true (fun _ => ?_)
    obtain ⟨c, i, cmd, t, hc1, hc2, hc3, _⟩ := h.mode r b hm
    have hx : x = r := by have := List.find?_some hf; simpa using this
    subst hx
    obtain ⟨b', c', h2, h3, h4⟩ := h.done x e (List.mem_of_find?_eq_some hf)
    have := (h.uniq b c b' c' hc1 h2 (by simp [hc2]) (by rw [hc2, h3])).1
    subst this; exact h4
  | cmdEnd b w hl ha hq hm => exact h.endConn b
  | cmdOk b c q hl ha hq =>
    have h1 := h.connTake hcn hq
    refine h1.conn rfl rfl rfl rfl rfl ?_ ?_ ?_ (fun r e hx => .inl hx)
    · intro x k r hx
      simp only [setConn_conns] at hx; split at hx
      · rename_i hx'; subst hx'; exact .inl hx
      · exact .inl hx
    · intro x e hx
      simp only [setConn_conns]; split
      · rename_i hx'; subst hx'; exact hx
      · exact hx
    · intro x e hx
      simp only [setConn_conns] at hx; split at hx
      · rename_i hx'; subst hx'; exact .inl hx
      · exact .inl hx
  | cmdFail b c q hl ha hq => exact h.connTake hcn hq
  | cmdPanic b c q hl ha hq => exact (h.connTake hcn hq).endConn b
  | readEnd b x hl ha hx => exact h.endConn b
  | readConnected b v t inb r res hl ha hv hr =>
    obtain ⟨k, hk, hf, rfl⟩ := tryResolve_some hr
    obtain ⟨rfl, c, hc1, hc2⟩ := h.waiting b k r (mem_find hf)
    have hin := inbound_key_connect hk
    refine h.conn rfl rfl rfl rfl rfl ?_ ?_ ?_ ?_
    · intro x k r hx
      simp only [setConn_conns] at hx; split at hx
      · rename_i hx'; subst hx'; exact .inl (mem_erase hx)
      · exact .inl hx
    · intro x e hx
      simp only [setConn_conns]; split
      · rename_i hx'; subst hx'; simp [hx]
      · exact hx
    · intro x e hx
      simp only [setConn_conns] at hx; split at hx
      · rename_i hx'; subst hx'
        simp only [List.mem_append, List.mem_singleton] at hx
        rcases hx with hx | rfl
        · exact .inl hx
        · exact .inr hin
      · exact .inl hx
    · intro r' e hx
      simp only [List.mem_append, List.mem_singleton, Prod.mk.injEq, TokResult.resolved.injEq] at hx
      rcases hx with hx | ⟨rfl, rfl⟩
      · exact .inl hx
      · exact .inr ⟨b, c, hc1, hc2, by simp [setConn_conns]⟩
  | readForward b v t inb hl ha hv hr hm =>
    refine h.conn rfl rfl rfl rfl rfl ?_ ?_ ?_ (fun r e hx => .inl hx)
    · intro x k r hx
      simp only [setConn_conns] at hx; split at hx
      · rename_i hx'; subst hx'; exact .inl hx
      · exact .inl hx
    · intro x e hx
      simp only [setConn_conns]; split
      · rename_i hx'; subst hx'; exact hx
      · exact hx
    · intro x e hx
      simp only [setConn_conns] at hx; split at hx
      · rename_i hx'; subst hx'; exact .inl hx
      · exact .inl hx
  | _ => exact h.congr rfl rfl rfl rfl (.inl rfl) (.inl rfl) (fun d hd => .inl hd)

theorem rep {cfg : Cfg} {s : State} (h : Reachable cfg s) : Rep s :=
  h.induct (Rep.init cfg) fun _ _ _ hr hp hs => Rep.step (conn hr) (maps hr) hp hs

end Neutron.Sys
