import Verif.Proof.AppReach

/-!
# From a client to the socket of its broker
-/

namespace Neutron.World

open Neutron

variable {T : Type}

theorem frames_enc {oc : Bool} {l : List (Sys.ConnCmd × Bytes)} (h1 : Encoded oc l)
    (hv : ∀ x ∈ l, x.1.out.Valid ∧ x.1.out.volume + 300 < 4294967296) :
    ∃ l' : List (Sys.ConnCmd × (MessageCommand × Bytes)), l'.map (fun x => (x.1, x.2.2)) = l ∧
      (∀ x ∈ l', (∃ now, x.1.out.toCommand now = .ok x.2.1) ∧ Framed.IsFrame x.2) := by
  induction l with
  | nil => exact ⟨[], rfl, fun x hx => by cases hx⟩
  | cons y l ih =>
    obtain ⟨l', k1, k2⟩ := ih (fun x hx => h1 x (List.mem_cons_of_mem _ hx)) (fun x hx => hv x (List.mem_cons_of_mem _ hx))
    obtain ⟨now, hnow⟩ := h1 y (by simp)
    obtain ⟨hval, hfit⟩ := hv y (by simp)
    obtain ⟨item, t1, t2, t3⟩ := toCommand_ok now y.1.out hval
    have hs := parts_sendable item t2 t3 (Nat.lt_of_le_of_lt (size_le now _ item t1) hfit)
    rw [t1] at hnow
    have hb : Codec.encode oc item = .ok y.2 := hnow
    rw [Codec.encode_layout _ item _ _ hs.serialises hs.fits] at hb
    have hb := Outcome.ok.inj hb
    refine ⟨(y.1, (item, y.2)) :: l', by rw [List.map_cons, k1], ?_⟩
    intro x hx
    rcases List.mem_cons.mp hx with rfl | hx
    · exact ⟨⟨now, t1⟩, by rw [← hb]; exact Framed.isFrame_of hs⟩
    · exact k2 x hx

/-- What is reported written has been received, whole. -/
theorem received_written {cfg : Cfg T} {acts : List Act} {w : World T} (h : Run cfg acts w) (hv : Fits w) {b : BrokerAddress}
    {c : Sys.ConnCmd} (hc : c ∈ (w.sys.conns b).written) : ∃ v now, c.out.toCommand now = .ok v ∧ Received (w.tx b).sent v := by
  obtain ⟨l1, l2, h1, h2, h3, h4, h5⟩ := left h b
  have hl1 : ∀ x ∈ l1, x.1 ∈ (w.sys.conns b).processed := fun x hx => h4.subset (List.mem_map_of_mem (List.mem_append_left _ hx))
  obtain ⟨l', k1, k2⟩ := frames_enc (oc := cfg.overflowChecks) (l := l1) (fun x hx => h1 x (List.mem_append_left _ hx))
    (fun x hx => hv b x.1 (hl1 x hx))
  obtain ⟨x, hx, hxc⟩ := List.mem_map.mp (h5.subset hc)
  rw [← k1] at hx
  obtain ⟨y, hy, rfl⟩ := List.mem_map.mp hx
  obtain ⟨⟨now, hn⟩, _⟩ := k2 y hy
  refine ⟨y.2.1, now, by rw [← hxc]; exact hn, l'.map (·.2), ⟨?_, ?_⟩, ?_⟩
  · intro f hf
    obtain ⟨z, hz, rfl⟩ := List.mem_map.mp hf
    exact (k2 z hz).2
  · have : Framed.stream (l'.map (·.2)) = (l1.map (·.2)).flatten := by
      rw [← k1]; unfold Framed.stream; simp [Function.comp_def]
    rw [this]; exact h3
  · simp only [List.map_map, List.mem_map]
    exact ⟨y, hy, rfl⟩

/-- A write the socket accepts, to a connection that is still up afterwards, writes a command. -/
theorem write_ok {cfg : Cfg T} {acts : List Act} {w w' : World T} {b : BrokerAddress} {now : UInt64} (h : Run cfg acts w)
    (hs : step cfg w (.write b now .ok) = some w') (hv : Fits w') (hl : (w'.sys.conns b).alive = true) :
    ∃ c, (w'.sys.conns b).processed = (w.sys.conns b).processed ++ [c] ∧ (w'.sys.conns b).written = (w.sys.conns b).written ++ [c] := by
  cases hq : (w.sys.conns b).queue with
  | nil =>
    exfalso
    simp only [step] at hs
    split at hs
    · rw [hq] at hs
      simp only [] at hs
      split at hs
      · rename_i s' h1
        cases hs
        cases Sys.step_cases h1 with
        | cmdEnd => simp [sync, Sys.endConn, Sys.setConn_conns] at hl
        | cmdOk _ _ _ _ _ hq' => rw [hq] at hq'; cases hq'
      · cases hs
    · cases hs
  | cons c q =>
    have hst := write_step h hs b
    have key : ∃ (c' : Sys.ConnCmd) (r : Sys.Write), (w.tx b).send cfg.overflowChecks now c'.out .ok = some (w'.tx b, r) ∧
        (w'.sys.conns b).processed = (w.sys.conns b).processed ++ [c'] ∧
        (w'.sys.conns b).written = (w.sys.conns b).written ++ if r = .ok then [c'] else [] := by
      simp only [step] at hs
      split at hs
      · rw [hq] at hs
        simp only [] at hs
        split at hs
        · rename_i t r hsend
          split at hs
          · rename_i s' h1
            cases hs
            obtain ⟨k1, k2⟩ := Sys.cmd_step h1 hq
            exact ⟨c, r, by simpa [sync] using hsend, k1, k2⟩
          · cases hs
        · cases hs
      · cases hs
    obtain ⟨c', r, k1, k2, k3⟩ := key
    refine ⟨c', k2, ?_⟩
    rw [k3]
    obtain ⟨hval, hfit⟩ := hv b c' (by rw [k2]; simp)
    obtain ⟨item, t1, t2, t3⟩ := toCommand_ok now c'.out hval
    have hsd := parts_sendable item t2 t3 (Nat.lt_of_le_of_lt (size_le now _ item t1) hfit)
    obtain ⟨bytes, he⟩ : ∃ bytes, (c'.out.toCommand now).bind (Codec.encode cfg.overflowChecks) = .ok bytes := by
      rw [t1]; exact ⟨_, Codec.encode_layout _ item _ _ hsd.serialises hsd.fits⟩
    simp only [Tx.send, he, Option.some.injEq, Prod.mk.injEq] at k1
    rw [← k1.2, if_pos rfl]

/-- While the socket accepts everything and the connection stays up, every write writes the next command. -/
theorem writes_all {cfg : Cfg T} : ∀ (l : List Act) {log : List Act} {w w' : World T}, Run cfg log w → App.worldSteps cfg w l = some w' →
    ∀ {b : BrokerAddress}, WritesSucceed b l → Fits w' → (w'.sys.conns b).alive = true →
      ∃ d, (w'.sys.conns b).processed = (w.sys.conns b).processed ++ d ∧ (w'.sys.conns b).written = (w.sys.conns b).written ++ d ∧
        l.countP (Act.writes b) ≤ d.length := by
  intro l
  induction l using List.reverseRecOn with
  | nil => intro log w w' h hw b _ _ _; cases hw; exact ⟨[], by simp⟩
  | append_singleton l x ih =>
    intro log w w' h hw b hok hv hl
    rw [App.worldSteps_append] at hw
    cases hx : App.worldSteps cfg w l with
    | none => rw [hx] at hw; cases hw
    | some w1 =>
      rw [hx] at hw
      simp only [Option.bind_some, App.worldSteps] at hw
      cases hz : step cfg w1 x with
      | none => rw [hz] at hw; cases hw
      | some w2 =>
        rw [hz] at hw
        cases hw
        have hr1 : Run cfg (log ++ l) w1 := App.worldSteps_run h hx
        obtain ⟨lg, hsys, _⟩ := sys_log hr1
        have hreach : Sys.Reachable cfg.sys w1.sys := ⟨lg, hsys⟩
        have hst := write_step hr1 hz b
        have hv1 : Fits w1 := by
          intro b' c hc
          refine hv b' c ?_
          cases write_step hr1 hz b' with
          | same _ hp _ => rw [hp]; exact hc
          | sent _ _ _ _ _ _ _ hp _ => rw [hp]; exact List.mem_append_left _ hc
        have hl1 : (w1.sys.conns b).alive = true := by
          cases ha : (w1.sys.conns b).alive with
          | true => rfl
          | false =>
            exfalso
            have : (w'.sys.conns b).alive = false :=
              App.world_step_induct (fun s => Sys.Reachable cfg.sys s ∧ (s.conns b).alive = false)
                (fun s a s' h hs => ⟨h.1.step hs, dead_step h.1 hs h.2⟩) ⟨hreach, ha⟩ hz |>.2
            rw [this] at hl; cases hl
        obtain ⟨d, d1, d2, d3⟩ := ih h hx (fun now io hm => hok now io (List.mem_append_left _ hm)) hv1 hl1
        rw [List.countP_append]
        by_cases hxw : Act.writes b x = true
        · cases x with
          | write b' now io =>
            have hb : b' = b := by simpa [Act.writes] using hxw
            subst hb
            have hio : io = .ok := hok now io (by simp)
            subst hio
            obtain ⟨c, c1, c2⟩ := write_ok hr1 hz hv hl
            refine ⟨d ++ [c], by rw [c1, d1]; simp, by rw [c2, d2]; simp, ?_⟩
            simp only [List.length_append, List.length_singleton]
            have : [Act.write b' now .ok].countP (Act.writes b') ≤ 1 := List.countP_le_length
            omega
          | _ => simp [Act.writes] at hxw
        · have hc : [x].countP (Act.writes b) = 0 := by simp [hxw]
          rw [hc]
          cases hst with
          | same _ hp hw => exact ⟨d, by rw [hp, d1], by rw [hw, d2], by omega⟩
          | sent => simp [Act.writes] at hxw

/-- What happens to the instance during a run of the whole, seen by what the engine takes from client `i`. -/
theorem continues_takes {cfg : Cfg T} (i : Nat) : ∀ (l : List Act) {w w' : World T}, App.worldSteps cfg w l = some w' →
    ∃ as, Sys.Continues cfg.sys w.sys as w'.sys ∧ l.countP (Act.takes i) ≤ Sys.countActs (Sys.Act.servesClient i) as := by
  intro l
  induction l with
  | nil => intro w w' h; cases h; exact ⟨[], .nil trivial, by simp⟩
  | cons z l ih =>
    intro w w' h
    simp only [App.worldSteps] at h
    cases hz : step cfg w z with
    | none => rw [hz] at h; cases h
    | some w1 =>
      rw [hz] at h
      obtain ⟨bs, h1, h2⟩ := ih h
      have hx : ∃ as, sysSteps cfg.sys w.sys as = some w1.sys ∧ [z].countP (Act.takes i) ≤ Sys.countActs (Sys.Act.servesClient i) as := by
        by_cases hy : ∃ y, z = .sys y
        · obtain ⟨y, rfl⟩ := hy
          refine ⟨[y], App.worldSteps_sys (as := [y]) (by simp only [List.map_cons, List.map_nil, App.worldSteps, hz]), ?_⟩
          cases y <;> simp [Sys.countActs, Sys.Act.servesClient, Act.takes, List.filter]
          rename_i j _ _
          by_cases hj : j = i <;> simp [hj]
        · obtain ⟨as, h3, _⟩ := App.world_acts hz
          refine ⟨as, h3, ?_⟩
          have : Act.takes i z = false := by
            cases z with
            | sys y => exact absurd ⟨y, rfl⟩ hy
            | _ => rfl
          simp [this]
      obtain ⟨as, h3, h4⟩ := hx
      refine ⟨as ++ bs, App.path_append (App.continues_sysSteps as h3) h1, ?_⟩
      have hsplit : Sys.countActs (Sys.Act.servesClient i) (as ++ bs) =
          Sys.countActs (Sys.Act.servesClient i) as + Sys.countActs (Sys.Act.servesClient i) bs := by
        simp [Sys.countActs]
      rw [hsplit, List.countP_cons]
      rw [List.countP_cons] at h4
      simp only [List.countP_nil, Nat.zero_add] at h4
      omega

end Neutron.World
