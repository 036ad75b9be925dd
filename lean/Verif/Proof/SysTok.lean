import Verif.Proof.SysSimp

/-!
# Every request is in exactly one place
-/

namespace Neutron.Sys

open Neutron

/-- The tokens of a list of commands. -/
def toks (l : List ClientCmd) : List Tok := l.filterMap (·.tok)

/-- The tokens of client `i`'s calls that the engine has not taken. -/
def pendingToks (s : State) (i : Nat) : List Tok := toks (s.clients i).starting ++ toks (s.clients i).queue

/-- All tokens, wherever they are: with a client, in the engine's resolver, completed. -/
def allToks (s : State) : List Tok :=
  (List.range s.nClients).flatMap (pendingToks s) ++ (s.resolver.map (·.2) ++ s.outcomes.map (·.1))

/-- Number of places token `t` is in. -/
def places (s : State) (t : Nat) : Nat :=
  ((List.range s.nClients).map fun i => (pendingToks s i).count t).sum +
    ((s.resolver.map (·.2)).count t + (s.outcomes.map (·.1)).count t)

theorem count_allToks (s : State) (t : Nat) : (allToks s).count t = places s t := by
  simp only [allToks, places, List.count_append, List.count_flatMap]
  rfl

theorem sum_range_congr {n : Nat} {f g : Nat → Nat} (h : ∀ j, j < n → f j = g j) :
    ((List.range n).map f).sum = ((List.range n).map g).sum := by
  congr 1
  exact List.map_congr_left fun j hj => h j (List.mem_range.mp hj)

theorem sum_range_update {n i : Nat} {f g : Nat → Nat} (hi : i < n) (h : ∀ j, j ≠ i → f j = g j) :
    ((List.range n).map f).sum + g i = ((List.range n).map g).sum + f i := by
  induction n with
  | zero => omega
  | succ n ih =>
    simp only [List.range_succ, List.map_append, List.map_cons, List.map_nil, List.sum_append, List.sum_cons, List.sum_nil]
    by_cases hn : i = n
    · subst hn
      have : ((List.range i).map f).sum = ((List.range i).map g).sum :=
        sum_range_congr fun j hj => h j (by omega)
      omega
    · have := ih (by omega)
      have := h n (fun h => hn h.symm)
      omega

theorem places_congr {s s' : State} (hn : s'.nClients = s.nClients)
    (h1 : ∀ k, (s'.clients k).starting = (s.clients k).starting) (h2 : ∀ k, (s'.clients k).queue = (s.clients k).queue)
    (hr : s'.resolver = s.resolver) (ho : s'.outcomes = s.outcomes) (t : Nat) : places s' t = places s t := by
  simp only [places, pendingToks, hn, h1, h2, hr, ho]

/-- Changing one client, the resolver and the outcomes. -/
theorem places_update {s s' : State} {i : Nat} (hi : i < s.nClients) (hn : s'.nClients = s.nClients)
    (h : ∀ k, k ≠ i → pendingToks s' k = pendingToks s k) (t : Nat) :
    places s' t + ((pendingToks s i).count t + (s.resolver.map (·.2)).count t + (s.outcomes.map (·.1)).count t) =
    places s t + ((pendingToks s' i).count t + (s'.resolver.map (·.2)).count t + (s'.outcomes.map (·.1)).count t) := by
  have := sum_range_update (n := s.nClients) (i := i) (f := fun i => (pendingToks s' i).count t)
    (g := fun i => (pendingToks s i).count t) hi (fun j hj => by rw [h j hj])
  simp only [places, hn]
  omega

/-- Whether a token has been issued. -/
def ind (n t : Nat) : Nat := if t < n then 1 else 0

/-- The accounting of a step that changes one client, and adds outcomes `o`. -/
theorem places_client {s s' : State} (i : Nat) (o : List (Tok × TokResult)) {t : Nat} (hi : i < s.nClients)
    (hn : s'.nClients = s.nClients) (hk : ∀ k, k ≠ i → s'.clients k = s.clients k) (hr : s'.resolver = s.resolver)
    (ho : s'.outcomes = s.outcomes ++ o)
    (hc : (toks (s'.clients i).starting).count t + (toks (s'.clients i).queue).count t + (o.map (·.1)).count t +
        ind s.issued.length t =
      (toks (s.clients i).starting).count t + (toks (s.clients i).queue).count t + ind s'.issued.length t) :
    places s' t + ind s.issued.length t = places s t + ind s'.issued.length t := by
  have h := places_update (s := s) (s' := s') hi hn (fun k h => by simp only [pendingToks, hk k h]) t
  simp only [pendingToks, hr, ho, List.map_append, List.count_append] at h
  omega

theorem find_erase_count (r : Resolver) (k : Key) (t : Nat) :
    ((r.erase k).map (·.2)).count t + (r.find k).toList.count t = (r.map (·.2)).count t := by
  induction r with
  | nil => rfl
  | cons p r ih =>
    simp only [Resolver.erase, Resolver.find, List.eraseP_cons, List.find?_cons] at ih ⊢
    by_cases h : (p.1 == k) = true
    · simp [h, List.count_cons]
    · have h' : (p.1 == k) = false := by simpa using h
      simp only [h', List.map_cons, List.count_cons, cond_false, Bool.false_eq_true, if_false]
      omega

theorem put_count (r : Resolver) (o : Outbound) (t t' : Nat) :
    ((r.put o t').1.map (·.2)).count t + (r.put o t').2.toList.count t = (r.map (·.2)).count t + [t'].count t := by
  unfold Resolver.put
  cases o.tryKey with
  | none => simp
  | some k =>
    have := find_erase_count r k t
    simp only [List.map_append, List.count_append, List.map_cons, List.map_nil]
    omega

theorem tryResolve_count {r r' : Resolver} {i : Inbound} {t' : Nat} (h : r.tryResolve i = some (t', r')) (t : Nat) :
    (r'.map (·.2)).count t + [t'].count t = (r.map (·.2)).count t := by
  unfold Resolver.tryResolve at h
  cases hk : i.tryKey with
  | none => simp [hk] at h
  | some k =>
    simp only [hk] at h
    cases hf : r.find k with
    | none => simp [hf] at h
    | some x =>
      simp only [hf, Option.some.injEq, Prod.mk.injEq] at h
      obtain ⟨rfl, rfl⟩ := h
      have := find_erase_count r k t
      rw [hf] at this
      simpa using this

theorem map_fst_pair {α β : Type} (l : List α) (x : β) : (l.map fun d => (d, x)).map (·.1) = l := by
  induction l with
  | nil => rfl
  | cons a l ih => simp_all

theorem places_stop (s : State) (t : Nat) : places (stop s) t = places s t := by
  simp only [places, pendingToks, stop_nClients, stop_clients, stop_resolver, stop_outcomes, List.map_nil, List.count_nil,
    List.map_append, List.count_append, List.map_map]
  have : (fun x : Nat × TokResult => x.1) ∘ (fun p : Key × Nat => (p.2, TokResult.cancelled)) = (·.2) := rfl
  rw [this]; omega

theorem takeCmd_resolver (s : State) (i : Nat) (cmd : ClientCmd) (q : List ClientCmd) :
    (takeCmd s i cmd q).resolver = match cmd.tok with
      | some t => (s.resolver.put cmd.out t).1
      | none => s.resolver := by
  unfold takeCmd; cases cmd.tok <;> rfl

theorem takeCmd_outcomes (s : State) (i : Nat) (cmd : ClientCmd) (q : List ClientCmd) :
    (takeCmd s i cmd q).outcomes = s.outcomes ++ match cmd.tok with
      | some t => ((s.resolver.put cmd.out t).2.toList.map fun d => (d, .cancelled))
      | none => [] := by
  unfold takeCmd
  cases cmd.tok with
  | none => simp
  | some t => rfl

theorem toks_append (a b : List ClientCmd) : toks (a ++ b) = toks a ++ toks b := List.filterMap_append

theorem toks_cons (c : ClientCmd) (l : List ClientCmd) : toks (c :: l) = c.tok.toList ++ toks l := by
  unfold toks
  cases h : c.tok with
  | none => rw [List.filterMap_cons_none (f := fun x : ClientCmd => x.tok) h]; rfl
  | some t => rw [List.filterMap_cons_some (f := fun x : ClientCmd => x.tok) h]; rfl

theorem toks_nil : toks [] = [] := rfl

theorem places_takeCmd {s : State} {i : Nat} {cmd : ClientCmd} {q : List ClientCmd} (hi : i < s.nClients)
    (hq : (s.clients i).queue = cmd :: q) (t : Nat) : places (takeCmd s i cmd q) t = places s t := by
  have h := places_update (s := s) (s' := takeCmd s i cmd q) hi (by simp)
    (fun k hk => by simp only [pendingToks, takeCmd_clients, if_neg hk]) t
  have e1 : (pendingToks (takeCmd s i cmd q) i) = toks (s.clients i).starting ++ toks q := by
    simp only [pendingToks, takeCmd_clients, if_pos]
  have e2 : pendingToks s i = toks (s.clients i).starting ++ (cmd.tok.toList ++ toks q) := by
    simp only [pendingToks, hq, toks_cons]
  rw [e1, e2, takeCmd_resolver, takeCmd_outcomes] at h
  cases ht : cmd.tok with
  | none => simp only [ht, Option.toList_none, List.nil_append, List.append_nil] at h; omega
  | some t' =>
    simp only [ht, Option.toList_some, List.count_append, List.map_append, map_fst_pair] at h
    have := put_count s.resolver cmd.out t t'
    omega

theorem places_managerSend (s : State) (e : Event) (b : BrokerAddress) (v : Bool) (t : Nat) :
    places (managerSend s e b v) t = places s t := by
  unfold managerSend
  split
  · rename_i t' r hr
    have := tryResolve_count hr t
    simp only [places, pendingToks, List.map_append, List.count_append, List.map_cons, List.map_nil]
    omega
  · apply places_congr <;> first | rfl | (intro k; simp only; split <;> rfl)

theorem places_out {cfg : Cfg} {s s' : State} {i : Nat} {cmd : ClientCmd} {auth : Outcome Bytes}
    (h : OutEnd cfg s i cmd auth s') (t : Nat) : places s' t = places s t := by
  cases h with
  | failed => exact places_stop s t
  | lost c c2 b s3 hc h2 hb hp =>
    rw [places_stop]
    exact places_congr hp.nClients hp.clients_starting hp.clients_queue hp.resolver hp.outcomes t
  | sent j hn hj ha hl => apply places_congr <;> simp
  | connecting c c2 b s3 j hc h2 hb hp hj ha hl =>
    rw [← places_congr (s := s) hp.nClients hp.clients_starting hp.clients_queue hp.resolver hp.outcomes t]
    apply places_congr <;> simp

theorem places_in {s s' : State} {b : BrokerAddress} {e : Event} (h : InEnd s b e s') (t : Nat) : places s' t = places s t := by
  cases h with
  | pingFailed h => rw [places_stop]; rfl
  | ping h ha hl => apply places_congr <;> simp
  | other h => exact places_managerSend ..

/-! ## Basic well-formedness -/

/-- Registered clients and registrations in flight are distinct existing clients; ids are indices; one connection per
address. -/
structure WF (s : State) : Prop where
  vecLt : ∀ i, i ∈ s.vec → i < s.nClients
  regLt : ∀ i, i ∈ s.regQueue → i < s.nClients
  nodup : (s.vec ++ s.regQueue).Nodup
  fresh : ∀ i, i < s.nClients → (s.clients i).phase = .fresh → i ∉ s.vec ++ s.regQueue
  ids : ∀ i, i < s.nClients → (s.clients i).core.clientId = UInt64.ofNat i
  dials : s.dials = s.addrs
  addrs : s.addrs.Nodup

theorem WF.congr {s s' : State} (h : WF s) (hn : s'.nClients = s.nClients) (hv : s'.vec = s.vec)
    (hr : s'.regQueue = s.regQueue) (hp : ∀ k, (s'.clients k).phase = (s.clients k).phase)
    (hi : ∀ k, (s'.clients k).core = (s.clients k).core) (hd : s'.dials = s.dials) (ha : s'.addrs = s.addrs) : WF s' :=
  ⟨by rw [hv, hn]; exact h.vecLt, by rw [hr, hn]; exact h.regLt, by rw [hv, hr]; exact h.nodup,
   by simp only [hv, hr, hn, hp]; exact h.fresh, by simp only [hn, hi]; exact h.ids, by rw [hd, ha]; exact h.dials,
   by rw [ha]; exact h.addrs⟩

theorem WF.dialed {s : State} {b : BrokerAddress} (h : WF s) (hb : b ∉ s.addrs) : WF (dialed s b) :=
  ⟨h.vecLt, h.regLt, h.nodup, h.fresh, h.ids, by simp [Sys.dialed, h.dials],
   by simp only [Sys.dialed]; exact List.nodup_append.mpr ⟨h.addrs, by simp, by
        intro x hx y hy; rintro rfl; simp at hy; subst hy; exact hb hx⟩⟩

theorem WF.prep {cfg : Cfg} {s s3 : State} {i : Nat} {c c2 : Connect} {b : BrokerAddress} (h : WF s)
    (hp : Prep cfg s i c c2 b s3) : WF s3 := by
  cases hp with
  | intro s2 hd hb =>
    have h2 : WF s2 := by
      rcases hd with rfl | ⟨hm, rfl⟩
      · exact h
      · exact h.dialed hm
    split
    · apply h2.congr <;> simp
    · exact h2

theorem WF.stop {s : State} (h : WF s) : WF (stop s) := by apply h.congr <;> simp

theorem WF.managerSend {s : State} {e : Event} {b : BrokerAddress} {v : Bool} (h : WF s) : WF (managerSend s e b v) := by
  apply h.congr <;> simp

theorem issue_clientId (c : Client) (call : Call) : (c.issue call).1.clientId = c.clientId := by cases call <;> rfl

theorem issue_clientName (c : Client) (call : Call) : (c.issue call).1.clientName = c.clientName := by cases call <;> rfl

/-- Changing one client without touching its id, and not making it fresh. -/
theorem WF.setClient {s : State} (h : WF s) {i : Nat} {c : ClientSt} (hid : c.core.clientId = (s.clients i).core.clientId)
    (hp : c.phase = .fresh → (s.clients i).phase = .fresh) : WF (s.setClient i c) := by
  refine ⟨h.vecLt, h.regLt, h.nodup, ?_, ?_, h.dials, h.addrs⟩
  · intro k hk
    simp only [setClient_clients, setClient_vec, setClient_regQueue]
    split
    · rename_i hki; subst hki; intro hf; exact h.fresh k hk (hp hf)
    · exact h.fresh k hk
  · intro k hk
    simp only [setClient_clients]
    split
    · rename_i hki; subst hki; rw [hid]; exact h.ids k hk
    · exact h.ids k hk

theorem WF.init (cfg : Cfg) : WF (init cfg) := by
  refine ⟨?_, ?_, ?_, ?_, ?_, rfl, ?_⟩ <;> simp [Sys.init]

theorem WF.step {cfg : Cfg} {s s' : State} {a : Act} (h : WF s) (hs : step cfg s a = some s') : WF s' := by
  cases step_cases hs with
  | startOk net hm s2 h2 =>
    rcases h2 with ⟨rfl, hb⟩ | ⟨hb, rfl⟩
    · apply h.congr <;> simp
    · apply (h.dialed hb).congr <;> simp
  | startFail net hm => exact h.stop
  | outGone i auth net hm hv ha hq hp => exact h.stop
  | out i auth net cmd q s' hm hv ha hq he =>
    have h1 : WF (takeCmd s i cmd q) := by apply h.congr <;> simp
    cases he with
    | failed => exact h1.stop
    | lost c c2 b s3 hc h2 hb hp => exact (h1.prep hp).stop
    | sent j hn hj ha hl => apply h1.congr <;> simp
    | connecting c c2 b s3 j hc h2 hb hp hj ha hl => apply (h1.prep hp).congr <;> simp
  | inLost b hm ha hv hq hl => exact h.stop
  | inb b e q s' hm ha hv hq he =>
    have h1 : WF (takeEvent s b e q) := by apply h.congr <;> simp
    cases he with
    | pingFailed _ => apply h1.congr <;> simp
    | ping _ _ _ => apply h1.congr <;> simp
    | other _ => exact h1.managerSend
  | reg i q hm hc hq hl =>
    have h1 : WF (s.setClient i { s.clients i with broker := cfg.config.brokerAddress }) := h.setClient rfl (fun h => h)
    have hn := h.nodup
    rw [hq] at hn
    have hf := h1.fresh
    simp only [setClient_vec, setClient_regQueue, hq] at hf
    refine ⟨?_, ?_, ?_, ?_, h1.ids, h.dials, h.addrs⟩
    · intro k hk
      simp only [List.mem_append, List.mem_singleton] at hk
      rcases hk with hk | rfl
      · exact h.vecLt k hk
      · exact h.regLt k (by rw [hq]; simp)
    · intro k hk; exact h.regLt k (by rw [hq]; exact List.mem_cons_of_mem _ hk)
    · simpa using hn
    · intro k hk; simpa using hf k hk
  | regFail i q hm hc hq hl =>
    have h1 : WF (s.setClient i { s.clients i with broker := cfg.config.brokerAddress }) := h.setClient rfl (fun h => h)
    have hn := h.nodup
    rw [hq] at hn
    have hf := h1.fresh
    simp only [setClient_vec, setClient_regQueue, hq] at hf
    apply WF.stop
    refine ⟨?_, ?_, ?_, ?_, h1.ids, h.dials, h.addrs⟩
    · intro k hk
      simp only [List.mem_append, List.mem_singleton] at hk
      rcases hk with hk | rfl
      · exact h.vecLt k hk
      · exact h.regLt k (by rw [hq]; simp)
    · intro k hk; exact h.regLt k (by rw [hq]; exact List.mem_cons_of_mem _ hk)
    · simpa using hn
    · intro k hk; simpa using hf k hk
  | regClosedStop hm hq hl hv => exact h.stop
  | regClosed hm hq hl hv ha => exact h
  | noConn hm hv ha => exact h.stop
  | connectOk r b x e hm hf =>
    have h1 : WF { s with mode := .idle } := by apply h.congr <;> simp
    exact h1.managerSend
  | connectLost r b x hm hf => exact h.stop
  | cmdEnd b w hl ha hq hm => apply h.congr <;> simp
  | cmdOk b c q hl ha hq => apply h.congr <;> simp
  | cmdFail b c q hl ha hq => apply h.congr <;> simp
  | cmdPanic b c q hl ha hq => apply h.congr <;> simp
  | readEnd b x hl ha hx => apply h.congr <;> simp
  | readSkip b x hl ha hx => exact h
  | readConnected b v t inb r res hl ha hv hr => apply h.congr <;> simp
  | readForward b v t inb hl ha hv hr hm => apply h.congr <;> simp
  | newClient name hl =>
    refine ⟨?_, ?_, h.nodup, ?_, ?_, h.dials, h.addrs⟩
    · intro k hk; have := h.vecLt k hk; simp only; omega
    · intro k hk; have := h.regLt k hk; simp only; omega
    · intro k hk
      simp only [setClient_clients, setClient_vec, setClient_regQueue]
      split
      · rename_i hkn; subst hkn; intro _ hm
        simp only [List.mem_append] at hm
        rcases hm with hm | hm
        · have := h.vecLt _ hm; omega
        · have := h.regLt _ hm; omega
      · rename_i hkn; exact h.fresh k (by simp only at hk; omega)
    · intro k hk
      simp only [setClient_clients]
      split
      · rename_i hkn; subst hkn; rfl
      · rename_i hkn; exact h.ids k (by simp only at hk; omega)
  | sendRegFail i hl hi hp hm => exact h.setClient rfl (by simp)
  | sendReg i hl hi hp hm =>
    have h1 : WF (s.setClient i { s.clients i with phase := .waiting }) := h.setClient rfl (by simp)
    have hnot := h.fresh i hi hp
    refine ⟨h1.vecLt, ?_, ?_, ?_, h1.ids, h.dials, h.addrs⟩
    · intro k hk
      simp only [List.mem_append, List.mem_singleton] at hk
      rcases hk with hk | rfl
      · exact h.regLt k hk
      · exact hi
    · simp only [setClient_vec, ← List.append_assoc]
      refine List.nodup_append.mpr ⟨h.nodup, by simp, ?_⟩
      intro x hx y hy; rintro rfl; simp at hy; subst hy; exact hnot hx
    · intro k hk
      simp only [setClient_clients, setClient_vec]
      split
      · simp
      · rename_i hki; intro hf
        have := h.fresh k hk hf
        simp only [List.mem_append, not_or] at this ⊢
        exact ⟨this.1, this.2, by simpa using hki⟩
  | recvReply i hl hi hp hr =>
    have h1 : WF (s.setClient i { s.clients i with phase := .ready }) := h.setClient rfl (by simp)
    apply h1.congr <;> simp
  | recvReplyFail i hl hi hp hr hm => exact h.setClient rfl (by simp)
  | cancelReg i hi hp => exact h.setClient rfl (by simp)
  | request i call hi hp hr =>
    have h1 : WF (s.setClient i { s.clients i with
            core := ((s.clients i).core.issue call).1,
            starting := (s.clients i).starting ++ [⟨((s.clients i).core.issue call).2, some s.issued.length⟩] }) :=
      h.setClient (issue_clientId _ _) (fun h => h)
    apply h1.congr <;> simp
  | oneway i call hi hp hr => exact h.setClient (issue_clientId _ _) (fun h => h)
  | submit i k cmd hi hk he => exact h.setClient rfl (fun h => h)
  | refuse i k cmd hi hk he =>
    have h1 : WF (s.setClient i { s.clients i with starting := (s.clients i).starting.eraseIdx k }) :=
      h.setClient rfl (fun h => h)
    apply h1.congr <;> simp
  | clientNext i e q hi hp hq => exact h.setClient rfl (fun h => h)
  | dropClient i hi hp hst => exact h.setClient rfl (by simp)
  | freeQueue i hi hp he =>
    have h1 : WF (s.setClient i { s.clients i with queue := [] }) := h.setClient rfl (fun h => h)
    apply h1.congr <;> simp
  | dropManager hl _ => apply h.congr <;> simp

theorem wf {cfg : Cfg} {s : State} (h : Reachable cfg s) : WF s :=
  h.induct (WF.init cfg) fun _ _ _ _ hp hs => WF.step hp hs

/-! ## The count -/

theorem toks_eraseIdx {l : List ClientCmd} {k : Nat} {c : ClientCmd} (h : l[k]? = some c) (t : Nat) :
    (toks (l.eraseIdx k)).count t + (c.tok.toList).count t = (toks l).count t := by
  induction l generalizing k with
  | nil => simp at h
  | cons a l ih =>
    cases k with
    | zero =>
      simp only [List.getElem?_cons_zero, Option.some.injEq] at h
      subst h
      simp only [List.eraseIdx_cons_zero, toks_cons, List.count_append]; omega
    | succ k =>
      simp only [List.getElem?_cons_succ] at h
      have := ih h
      simp only [List.eraseIdx_cons_succ, toks_cons, List.count_append]; omega

theorem places_init (cfg : Cfg) (t : Nat) : places (init cfg) t = 0 := by simp [places, init]

theorem places_step {cfg : Cfg} {s s' : State} {a : Act} (h : WF s) (hs : step cfg s a = some s') (t : Nat) :
    places s' t + ind s.issued.length t = places s t + ind s'.issued.length t := by
  have hst := step_cases hs
  clear hs
  have hcl : ∀ (i : Nat) (c : ClientSt) (k : Nat), k ≠ i → (s.setClient i c).clients k = s.clients k := by
    intro i c k hk; simp [setClient_clients, hk]
  cases hst with
  | startOk net hm s2 h2 => rcases h2 with ⟨rfl, hb⟩ | ⟨hb, rfl⟩ <;> rfl
  | startFail net hm => rw [places_stop]; rfl
  | outGone i auth net hm hv ha hq hp => rw [places_stop]; rfl
  | out i auth net cmd q s' hm hv ha hq he =>
    rw [places_out he, places_takeCmd (h.vecLt i hv) hq]
    have : s'.issued = s.issued := by
      cases he with
      | failed => simp
      | lost c c2 b s3 hc h2 hb hp => simp [hp.issued]
      | sent j hn hj ha hl => simp
      | connecting c c2 b s3 j hc h2 hb hp hj ha hl => simp [hp.issued]
    rw [this]
  | inLost b hm ha hv hq hl => rw [places_stop]; rfl
  | inb b e q s' hm ha hv hq he =>
    rw [places_in he]
    have : s'.issued = s.issued := by cases he <;> simp
    rw [this]; rfl
  | reg i q hm hc hq hl =>
    exact places_client i [] (h.regLt i (by rw [hq]; simp)) rfl (hcl i _) rfl (by simp) (by simp [setClient_clients])
  | regFail i q hm hc hq hl =>
    rw [places_stop]
    exact places_client i [] (h.regLt i (by rw [hq]; simp)) rfl (hcl i _) rfl (by simp) (by simp [setClient_clients])
  | regClosedStop hm hq hl hv => rw [places_stop]; rfl
  | regClosed hm hq hl hv ha => rfl
  | noConn hm hv ha => rw [places_stop]; rfl
  | connectOk r b x e hm hf => rw [places_managerSend]; simp; rfl
  | connectLost r b x hm hf => rw [places_stop]; rfl
  | cmdEnd b w hl ha hq hm => rfl
  | cmdOk b c q hl ha hq => rw [places_congr (s := s) (by simp) (by simp) (by simp) (by simp) (by simp)]; simp
  | cmdFail b c q hl ha hq => rw [places_congr (s := s) (by simp) (by simp) (by simp) (by simp) (by simp)]; simp
  | cmdPanic b c q hl ha hq => rw [places_congr (s := s) (by simp) (by simp) (by simp) (by simp) (by simp)]; simp
  | readEnd b x hl ha hx => rfl
  | readSkip b x hl ha hx => rfl
  | readConnected b v t inb r res hl ha hv hr => rfl
  | readForward b v t inb hl ha hv hr hm => rfl
  | newClient name hl =>
    simp only [places, List.range_succ, List.map_append, List.map_cons, List.map_nil, List.sum_append, List.sum_cons,
      List.sum_nil, setClient_resolver, setClient_outcomes, setClient_issued]
    rw [sum_range_congr (g := fun i => (pendingToks s i).count t)]
    · simp [pendingToks, setClient_clients, toks]
    · intro j hj
      have : j ≠ s.nClients := by omega
      simp only [pendingToks, setClient_clients, if_neg this]
  | sendRegFail i hl hi hp hm => exact places_client i [] hi rfl (hcl i _) rfl (by simp) (by simp [setClient_clients])
  | sendReg i hl hi hp hm => exact places_client i [] hi rfl (hcl i _) rfl (by simp) (by simp [setClient_clients])
  | recvReply i hl hi hp hr => exact places_client i [] hi rfl (hcl i _) rfl (by simp) (by simp [setClient_clients])
  | recvReplyFail i hl hi hp hr hm => exact places_client i [] hi rfl (hcl i _) rfl (by simp) (by simp [setClient_clients])
  | cancelReg i hi hp => exact places_client i [] hi rfl (hcl i _) rfl (by simp) (by simp [setClient_clients])
  | request i call hi hp hr =>
    refine places_client i [] hi rfl (hcl i _) rfl (by simp) ?_
    have e : List.count t [s.issued.length] + ind s.issued.length t = ind (s.issued.length + 1) t := by
      rw [List.count_singleton]
      rcases Nat.lt_trichotomy t s.issued.length with ht | ht | ht
      · have : (s.issued.length == t) = false := by simp; omega
        simp only [this, ind, if_pos ht, if_pos (Nat.lt_succ_of_lt ht)]; rfl
      · subst ht; simp [ind]
      · have : (s.issued.length == t) = false := by simp; omega
        have h1 : ¬ t < s.issued.length := by omega
        have h2 : ¬ t < s.issued.length + 1 := by omega
        simp only [this, ind, if_neg h1, if_neg h2]; rfl
    simp only [setClient_clients, if_pos, toks_append, toks_cons, toks_nil, Option.toList_some, List.append_nil,
      List.count_append, List.map_nil, List.count_nil, List.length_append, List.length_cons, List.length_nil, Nat.zero_add]
    omega
  | oneway i call hi hp hr =>
    refine places_client i [] hi rfl (hcl i _) rfl (by simp) ?_
    simp [setClient_clients, toks_append, toks_cons, toks_nil]
  | submit i k cmd hi hk he =>
    refine places_client i [] hi rfl (hcl i _) rfl (by simp) ?_
    have h2 := toks_eraseIdx hk t
    simp only [setClient_clients, if_pos, toks_append, toks_cons, toks_nil, List.append_nil,
      List.count_append, List.map_nil, List.count_nil, setClient_issued]
    omega
  | refuse i k cmd hi hk he =>
    refine places_client i (cmd.tok.toList.map fun t => (t, .cancelled)) hi rfl (hcl i _) rfl rfl ?_
    have h2 := toks_eraseIdx hk t
    simp only [setClient_clients, if_pos, map_fst_pair, setClient_issued]
    omega
  | clientNext i e q hi hp hq => exact places_client i [] hi rfl (hcl i _) rfl (by simp) (by simp [setClient_clients])
  | dropClient i hi hp hst => exact places_client i [] hi rfl (hcl i _) rfl (by simp) (by simp [setClient_clients])
  | freeQueue i hi hp he =>
    refine places_client i (((s.clients i).queue.filterMap (·.tok)).map fun t => (t, .cancelled)) hi rfl (hcl i _) rfl rfl ?_
    simp only [setClient_clients, if_pos, map_fst_pair, setClient_issued, toks_nil, List.count_nil]
    simp only [toks]
    omega
  | dropManager hl _ => rfl

theorem places_eq {cfg : Cfg} {s : State} (h : Reachable cfg s) (t : Nat) :
    places s t = ind s.issued.length t := by
  refine h.induct (P := fun s => places s t = ind s.issued.length t) ?_ ?_
  · show places (init cfg) t = ind 0 t
    rw [places_init]; rfl
  · intro s a s' hr hp hs
    have := places_step (wf hr) hs t
    omega

theorem allToks_perm {cfg : Cfg} {s : State} (h : Reachable cfg s) :
    (allToks s).Perm (List.range s.issued.length) := by
  rw [List.perm_iff_count]
  intro t
  rw [count_allToks, places_eq h t, ind]
  by_cases ht : t < s.issued.length
  · rw [if_pos ht, List.nodup_range.count, if_pos (List.mem_range.mpr ht)]
  · rw [if_neg ht, List.count_eq_zero_of_not_mem (by simpa using ht)]

end Neutron.Sys
