import Verif.Proof.SysTok

/-!
# Requests and the responses that complete them
-/

namespace Neutron.Sys

open Neutron

/-- The command was made by an API call on client `i` that expects a response. -/
def ByCall (i : Nat) (out : Outbound) : Prop :=
  ∃ (core : Client) (call : Call), core.clientId = UInt64.ofNat i ∧ call.expectsResponse = true ∧ out = (core.issue call).2

/-- Tokens know their request. -/
structure Req (s : State) : Prop where
  issued : ∀ (t i : Nat) (out : Outbound), s.issued[t]? = some (i, out) → i < s.nClients ∧ ByCall i out
  pending : ∀ i, i < s.nClients → ∀ cmd, cmd ∈ (s.clients i).starting ++ (s.clients i).queue → ∀ t : Nat, cmd.tok = some t →
    s.issued[t]? = some (i, cmd.out)
  waiting : ∀ (k : Key) (t : Nat), (k, t) ∈ s.resolver → ∃ i out, s.issued[t]? = some (i, out) ∧ out.tryKey = some k
  done : ∀ (t : Nat) (e : Event), (t, TokResult.resolved e) ∈ s.outcomes →
    ∃ i out k, s.issued[t]? = some (i, out) ∧ out.tryKey = some k ∧ e.inb.tryKey = some k

theorem Req.congr {s s' : State} (h : Req s) (hn : s'.nClients = s.nClients) (hi : s'.issued = s.issued)
    (h1 : ∀ k, k < s.nClients → (s'.clients k).starting = (s.clients k).starting)
    (h2 : ∀ k, k < s.nClients → (s'.clients k).queue = (s.clients k).queue)
    (hr : ∀ p, p ∈ s'.resolver → p ∈ s.resolver)
    (ho : ∀ t e, (t, TokResult.resolved e) ∈ s'.outcomes → (t, TokResult.resolved e) ∈ s.outcomes) : Req s' := by
  refine ⟨?_, ?_, ?_, ?_⟩
  · rw [hi, hn]; exact h.issued
  · intro k hk; rw [hn] at hk; rw [h1 k hk, h2 k hk, hi]; exact h.pending k hk
  · intro k t hm; rw [hi]; exact h.waiting k t (hr _ hm)
  · intro t e hm; rw [hi]; exact h.done t e (ho _ _ hm)

theorem mem_find {r : Resolver} {k : Key} {t : Nat} (h : r.find k = some t) : (k, t) ∈ r := by
  unfold Resolver.find at h
  cases hf : List.find? (fun p => p.1 == k) r with
  | none => simp [hf] at h
  | some p =>
    simp only [hf, Option.map_some, Option.some.injEq] at h
    have h1 := List.mem_of_find?_eq_some hf
    have h2 := List.find?_some hf
    simp only [beq_iff_eq] at h2
    subst h; subst h2; exact h1

theorem mem_erase {r : Resolver} {k : Key} {p : Key × Nat} (h : p ∈ r.erase k) : p ∈ r := List.mem_of_mem_eraseP h

theorem tryResolve_some {r r' : Resolver} {i : Inbound} {t : Nat} (h : r.tryResolve i = some (t, r')) :
    ∃ k, i.tryKey = some k ∧ r.find k = some t ∧ r' = r.erase k := by
  unfold Resolver.tryResolve at h
  cases hk : i.tryKey with
  | none => simp [hk] at h
  | some k =>
    simp only [hk] at h
    cases hf : r.find k with
    | none => simp [hf] at h
    | some x =>
      simp only [hf, Option.some.injEq, Prod.mk.injEq] at h
      exact ⟨k, rfl, by rw [← h.1]; exact hf, h.2.symm⟩

theorem mem_put {r : Resolver} {o : Outbound} {t : Nat} {p : Key × Nat} (h : p ∈ (r.put o t).1) :
    p ∈ r ∨ (o.tryKey = some p.1 ∧ p.2 = t) := by
  unfold Resolver.put at h
  cases hk : o.tryKey with
  | none => left; simpa [hk] using h
  | some k =>
    simp only [hk, List.mem_append, List.mem_singleton] at h
    rcases h with h | h
    · exact .inl (mem_erase h)
    · subst h; exact .inr ⟨rfl, rfl⟩

theorem Req.stop {s : State} (h : Req s) : Req (stop s) := by
  refine h.congr rfl rfl (fun _ _ => rfl) (fun _ _ => rfl) (by simp) ?_
  intro t e hm
  simp only [stop_outcomes, List.mem_append, List.mem_map, Prod.mk.injEq] at hm
  rcases hm with hm | ⟨p, _, _, h⟩
  · exact hm
  · exact absurd h (by simp)

theorem adjust_tryKey (b : BrokerAddress) (i : Inbound) : (adjust b i).tryKey = i.tryKey := by cases i <;> rfl

theorem Req.managerSend {s : State} (h : Req s) (e : Event) (b : BrokerAddress) (v : Bool) : Req (managerSend s e b v) := by
  unfold Sys.managerSend
  split
  · rename_i t r hr
    obtain ⟨k, hk, hf, rfl⟩ := tryResolve_some hr
    obtain ⟨i, out, hi, ho⟩ := h.waiting k t (mem_find hf)
    refine ⟨h.issued, h.pending, ?_, ?_⟩
    · intro k' t' hm; exact h.waiting k' t' (mem_erase hm)
    · intro t' e' hm
      simp only [List.mem_append, List.mem_singleton, Prod.mk.injEq, TokResult.resolved.injEq] at hm
      rcases hm with hm | ⟨rfl, rfl⟩
      · exact h.done t' e' hm
      · exact ⟨i, out, k, hi, ho, hk⟩
  · refine h.congr rfl rfl ?_ ?_ (fun p hp => hp) (fun t e hm => hm)
    all_goals intro k _; simp only; split <;> rfl

theorem Req.takeCmd {s : State} (h : Req s) {i : Nat} (hi : i < s.nClients) {cmd : ClientCmd} {q : List ClientCmd}
    (hq : (s.clients i).queue = cmd :: q) : Req (takeCmd s i cmd q) := by
  have hp := h.pending i hi
  rw [hq] at hp
  refine ⟨by simpa using h.issued, ?_, ?_, ?_⟩
  · intro k hk c hc t ht
    simp only [takeCmd_issued, takeCmd_nClients, takeCmd_clients] at *
    split at hc
    · rename_i hki; subst hki
      refine hp c ?_ t ht
      simp only [List.mem_append, List.mem_cons] at hc ⊢
      rcases hc with hc | hc
      · exact .inl hc
      · exact .inr (.inr hc)
    · exact h.pending k hk c hc t ht
  · intro k t hm
    rw [takeCmd_issued]
    rw [takeCmd_resolver] at hm
    cases ht : cmd.tok with
    | none => rw [ht] at hm; exact h.waiting k t hm
    | some t' =>
      rw [ht] at hm
      rcases mem_put hm with hm | ⟨hk, rfl⟩
      · exact h.waiting k t hm
      · exact ⟨i, cmd.out, hp cmd (by simp) _ ht, hk⟩
  · intro t e hm
    rw [takeCmd_issued]
    rw [takeCmd_outcomes] at hm
    apply h.done t e
    cases ht : cmd.tok with
    | none => rw [ht] at hm; simpa using hm
    | some t' => rw [ht] at hm; simpa using hm

theorem Req.init (cfg : Cfg) : Req (init cfg) := by
  refine ⟨?_, ?_, ?_, ?_⟩ <;> simp [Sys.init]

theorem getElem?_append_some {α : Type} {l l' : List α} {n : Nat} {a : α} (h : l[n]? = some a) : (l ++ l')[n]? = some a := by
  have : n < l.length := by
    rw [List.getElem?_eq_some_iff] at h; exact h.1
  rw [List.getElem?_append_left this]; exact h

theorem mem_append_cancelled {l : List (Tok × TokResult)} {o : List Tok} {t : Tok} {e : Event}
    (h : (t, TokResult.resolved e) ∈ l ++ o.map fun t => (t, .cancelled)) : (t, TokResult.resolved e) ∈ l := by
  simpa using h

theorem Req.step {cfg : Cfg} {s s' : State} {a : Act} (hw : WF s) (h : Req s) (hs : step cfg s a = some s') : Req s' := by
  have hst := step_cases hs
  clear hs
  cases hst with
  | startOk net hm s2 h2 =>
    rcases h2 with ⟨rfl, hb⟩ | ⟨hb, rfl⟩ <;> (apply h.congr <;> simp)
  | startFail net hm => exact h.stop
  | outGone i auth net hm hv ha hq hp => exact h.stop
  | out i auth net cmd q s' hm hv ha hq he =>
    have h1 := h.takeCmd (hw.vecLt i hv) hq
    cases he with
    | failed => exact h1.stop
    | lost c c2 b s3 hc h2 hb hp =>
      apply Req.stop
      apply h1.congr <;> simp [hp.nClients, hp.clients_starting, hp.clients_queue, hp.resolver, hp.outcomes, hp.issued]
    | sent j hn hj ha hl => apply h1.congr <;> simp
    | connecting c c2 b s3 j hc h2 hb hp hj ha hl =>
      apply h1.congr <;> simp [hp.nClients, hp.clients_starting, hp.clients_queue, hp.resolver, hp.outcomes, hp.issued]
  | inLost b hm ha hv hq hl => exact h.stop
  | inb b e q s' hm ha hv hq he =>
    have h1 : Req (takeEvent s b e q) := by apply h.congr <;> simp
    cases he with
    | pingFailed _ =>
      apply Req.stop
      apply h1.congr <;> simp
    | ping _ _ _ => apply h1.congr <;> simp
    | other _ => exact h1.managerSend _ _ _
  | reg i q hm hc hq hl =>
    apply h.congr <;> first | rfl | (simp; done) | (intro k _; simp only [setClient_clients]; split <;> simp_all)
  | regFail i q hm hc hq hl =>
    apply Req.stop
    apply h.congr <;> first | rfl | (simp; done) | (intro k _; simp only [setClient_clients]; split <;> simp_all)
  | regClosedStop hm hq hl hv => exact h.stop
  | regClosed hm hq hl hv ha => exact h
  | noConn hm hv ha => exact h.stop
  | connectOk r b x e hm hf =>
    have h1 : Req { s with mode := .idle } := by apply h.congr <;> simp
    exact h1.managerSend _ _ _
  | connectLost r b x hm hf => exact h.stop
  | cmdEnd b w hl ha hq hm => apply h.congr <;> simp
  | cmdOk b c q hl ha hq => apply h.congr <;> simp
  | cmdFail b c q hl ha hq => apply h.congr <;> simp
  | cmdPanic b c q hl ha hq => apply h.congr <;> simp
  | readEnd b x hl ha hx => apply h.congr <;> simp
  | readSkip b x hl ha hx => exact h
  | readConnected b v t inb r res hl ha hv hr => apply h.congr <;> simp
  | readForward b v t inb hl ha hv hr hm => apply h.congr <;> simp
  | newClient name hl =>
    refine ⟨?_, ?_, h.waiting, h.done⟩
    · intro t i out hi
      obtain ⟨h1, h2⟩ := h.issued t i out hi
      exact ⟨by simp only; omega, h2⟩
    · intro k hk
      simp only [setClient_clients]
      split
      · simp
      · simp only at hk
        exact h.pending k (by omega)
  | sendRegFail i hl hi hp hm | sendReg i hl hi hp hm | recvReply i hl hi hp hr | recvReplyFail i hl hi hp hr hm
  | cancelReg i hi hp | clientNext i e q hi hp hq | dropClient i hi hp hst =>
    apply h.congr <;> first | rfl | (simp; done) | (intro k _; simp only [setClient_clients]; split <;> simp_all)
  | request i call hi hp hr =>
    have hb : ByCall i ((s.clients i).core.issue call).2 := ⟨_, call, hw.ids i hi, hr, rfl⟩
    refine ⟨?_, ?_, ?_, ?_⟩
    · intro t j out hj
      simp only at hj
      by_cases ht : t < s.issued.length
      · rw [List.getElem?_append_left ht] at hj; exact h.issued t j out hj
      · rw [List.getElem?_append_right (by omega)] at hj
        rw [List.getElem?_singleton] at hj
        split at hj
        · simp only [Option.some.injEq, Prod.mk.injEq] at hj
          obtain ⟨rfl, rfl⟩ := hj; exact ⟨hi, hb⟩
        · exact absurd hj (by simp)
    · intro k hk c hc t ht
      simp only [setClient_clients] at hc ⊢
      split at hc
      · rename_i hki; subst hki
        simp only [List.mem_append, List.mem_singleton] at hc
        rcases hc with (hc | rfl) | hc
        · exact getElem?_append_some (h.pending k hk c (by simp [hc]) t ht)
        · simp only [Option.some.injEq] at ht
          subst ht; simp
        · exact getElem?_append_some (h.pending k hk c (by simp [hc]) t ht)
      · exact getElem?_append_some (h.pending k hk c hc t ht)
    · intro k t hm
      obtain ⟨i, out, h1, h2⟩ := h.waiting k t hm
      exact ⟨i, out, getElem?_append_some h1, h2⟩
    · intro t e hm
      obtain ⟨i, out, k, h1, h2⟩ := h.done t e hm
      exact ⟨i, out, k, getElem?_append_some h1, h2⟩
  | oneway i call hi hp hr =>
    refine ⟨h.issued, ?_, h.waiting, h.done⟩
    intro k hk c hc t ht
    simp only [setClient_clients] at hc
    split at hc
    · rename_i hki; subst hki
      simp only [List.mem_append, List.mem_singleton] at hc
      rcases hc with (hc | rfl) | hc
      · exact h.pending k hk c (by simp [hc]) t ht
      · exact absurd ht (by simp)
      · exact h.pending k hk c (by simp [hc]) t ht
    · exact h.pending k hk c hc t ht
  | submit i k cmd hi hk he =>
    refine ⟨h.issued, ?_, h.waiting, h.done⟩
    intro j hj c hc t ht
    simp only [setClient_clients] at hc
    split at hc
    · rename_i hki; subst hki
      simp only [List.mem_append, List.mem_singleton] at hc
      rcases hc with hc | hc | rfl
      · exact h.pending j hj c (by simp [List.mem_of_mem_eraseIdx hc]) t ht
      · exact h.pending j hj c (by simp [hc]) t ht
      · exact h.pending j hj c (by simp [List.mem_of_getElem? hk]) t ht
    · exact h.pending j hj c hc t ht
  | refuse i k cmd hi hk he =>
    refine ⟨h.issued, ?_, h.waiting, fun t e hm => h.done t e (mem_append_cancelled hm)⟩
    intro j hj c hc t ht
    simp only [setClient_clients] at hc
    split at hc
    · rename_i hki; subst hki
      simp only [List.mem_append] at hc
      rcases hc with hc | hc
      · exact h.pending j hj c (by simp [List.mem_of_mem_eraseIdx hc]) t ht
      · exact h.pending j hj c (by simp [hc]) t ht
    · exact h.pending j hj c hc t ht
  | freeQueue i hi hp he =>
    refine ⟨h.issued, ?_, h.waiting, fun t e hm => h.done t e (mem_append_cancelled hm)⟩
    intro j hj c hc t ht
    simp only [setClient_clients] at hc
    split at hc
    · rename_i hki; subst hki
      exact h.pending j hj c (by simp at hc; simp [hc]) t ht
    · exact h.pending j hj c hc t ht
  | dropManager hl _ => apply h.congr <;> simp

theorem req {cfg : Cfg} {s : State} (h : Reachable cfg s) : Req s :=
  h.induct (Req.init cfg) fun _ _ _ hr hp hs => Req.step (wf hr) hp hs

end Neutron.Sys
