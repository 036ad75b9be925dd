import Verif.Proof.WorldWrites
import Verif.Proof.SysMade
import Verif.Spec.Received
import Verif.Proof.Framed
import Verif.Proof.Message
import Verif.Proof.Sizes

/-!
# Where reads of the instance come from, and what brokers have received
-/

namespace Neutron.World

open Neutron

variable {T : Type}

/-- The run of the instance within a run of the whole: everything it reads is something a poll of the socket yielded. -/
theorem sys_log {cfg : Cfg T} {acts : List Act} {w : World T} (h : Run cfg acts w) :
    ∃ log, Sys.Run cfg.sys log w.sys ∧ ∀ b it, Sys.Act.connRead b it ∈ log → ∃ pre post ans w', acts = pre ++ .poll b ans :: post ∧
      Run cfg pre w' ∧ item ans (Framed.pollNext (w'.rx b).framed (w'.rx b).socket).1 = some it := by
  induction h with
  | nil => exact ⟨[], .nil, fun b it hm => by cases hm⟩
  | @snoc as w w' a h hs ih =>
    obtain ⟨log, hl, hlog⟩ := ih
    have old : ∀ b it, Sys.Act.connRead b it ∈ log → ∃ pre post ans w', as ++ [a] = pre ++ .poll b ans :: post ∧
        Run cfg pre w' ∧ item ans (Framed.pollNext (w'.rx b).framed (w'.rx b).socket).1 = some it := by
      intro b it hm
      obtain ⟨pre, post, ans, w1, h1, h2, h3⟩ := hlog b it hm
      exact ⟨pre, post ++ [a], ans, w1, by rw [h1]; simp, h2, h3⟩
    have one : ∀ (x : Sys.Act) s', (∀ b it, x ≠ .connRead b it) → Sys.step cfg.sys w.sys x = some s' →
        ∃ log, Sys.Run cfg.sys log s' ∧ ∀ b it, Sys.Act.connRead b it ∈ log → ∃ pre post ans w', as ++ [a] = pre ++ .poll b ans :: post ∧
          Run cfg pre w' ∧ item ans (Framed.pollNext (w'.rx b).framed (w'.rx b).socket).1 = some it := by
      intro x s' hx hstep
      refine ⟨log ++ [x], .snoc hl hstep, fun b it hm => ?_⟩
      rcases List.mem_append.mp hm with hm | hm
      · exact old b it hm
      · exact absurd (List.mem_singleton.mp hm).symm (hx b it)
    cases a with
    | arrive b r =>
      simp only [step] at hs
      split at hs
      · cases hs; exact ⟨log, hl, old⟩
      · cases hs
    | hold b =>
      simp only [step] at hs
      split at hs
      · cases hs; exact ⟨log, hl, old⟩
      · cases hs
    | serve i' =>
      simp only [step] at hs
      split at hs
      · cases hs; exact ⟨log, hl, old⟩
      · cases hs
    | poll b ans =>
      simp only [step] at hs
      split at hs
      · split at hs
        · rename_i s' h1
          cases hs
          refine ⟨log ++ _, run_steps hl h1, fun b' it hm => ?_⟩
          rcases List.mem_append.mp hm with hm | hm
          · exact old b' it hm
          · obtain ⟨x, hx, hxe⟩ := List.mem_map.mp hm
            cases hxe
            exact ⟨as, [], ans, w, rfl, h, Option.mem_toList.mp hx⟩
        · cases hs
      · cases hs
    | write b now io =>
      simp only [step] at hs
      split at hs
      · split at hs
        · split at hs
          · rename_i h1; cases hs; exact one _ _ (by intro b it hc; cases hc) h1
          · cases hs
        · split at hs
          · split at hs
            · rename_i h1; cases hs; exact one _ _ (by intro b it hc; cases hc) h1
            · cases hs
          · cases hs
      · cases hs
    | sys x =>
      simp only [step] at hs
      split at hs
      · rename_i hf
        split at hs
        · rename_i h1; cases hs; exact one _ _ (by rintro b it rfl; cases hf) h1
        · cases hs
      · cases hs
    | app x =>
      simp only [step] at hs
      split at hs
      · split at hs
        · split at hs
          · rename_i h1
            cases hs
            refine ⟨log ++ _, run_steps hl h1, fun b it hm => ?_⟩
            rcases List.mem_append.mp hm with hm | hm
            · exact old b it hm
            · exfalso
              unfold induced at hm
              cases x <;> simp only [List.not_mem_nil] at hm
              all_goals split at hm
              all_goals first | (split at hm <;> simp at hm; done) | (simp at hm; done)
          · cases hs
        · cases hs
      · cases hs

/-- Bytes a socket has accepted stay accepted. -/
theorem sent_step {cfg : Cfg T} {acts : List Act} {w w' : World T} {a : Act} (h : Run cfg acts w) (hs : step cfg w a = some w')
    (b : BrokerAddress) : (w.tx b).sent <+: (w'.tx b).sent := by
  cases write_step h hs b with
  | same ht hp hw => rw [ht]; exact List.prefix_refl _
  | sent now io c q r hq ht hp hw =>
    generalize w'.tx b = t at ht
    unfold Tx.send at ht
    cases io with
    | ok =>
      simp only at ht
      split at ht <;> cases ht <;> simp
    | failed k =>
      simp only at ht
      split at ht <;> cases ht <;> simp [Tx.push]
    | full k =>
      simp only at ht
      split at ht
      · split at ht <;> cases ht <;> simp [Tx.push]
      · cases ht

theorem run_last {cfg : Cfg T} {as : List Act} {a : Act} {w : World T} (h : Run cfg (as ++ [a]) w) :
    ∃ w0, Run cfg as w0 ∧ step cfg w0 a = some w := by
  generalize hx : as ++ [a] = l at h
  cases h with
  | nil => simp at hx
  | snoc h hs =>
    obtain ⟨rfl, hxy⟩ := List.append_inj' hx rfl
    cases hxy
    exact ⟨_, h, hs⟩

theorem run_unique {cfg : Cfg T} {as : List Act} {w w' : World T} (h : Run cfg as w) (h' : Run cfg as w') : w = w' := by
  induction h generalizing w' with
  | nil =>
    generalize hx : ([] : List Act) = l at h'
    cases h' with
    | nil => rfl
    | snoc => simp at hx
  | snoc h hs ih =>
    obtain ⟨w0, h0, hs0⟩ := run_last h'
    rw [ih h0] at hs
    exact Option.some.inj (hs.symm.trans hs0)

theorem sent_mono {cfg : Cfg T} {pre post : List Act} {w w' : World T} (h : Run cfg pre w) (h' : Run cfg (pre ++ post) w')
    (b : BrokerAddress) : (w.tx b).sent <+: (w'.tx b).sent := by
  generalize hn : post.length = n
  induction n generalizing post w' with
  | zero =>
    rw [List.length_eq_zero_iff.mp hn, List.append_nil] at h'
    rw [run_unique h h']; exact List.prefix_refl _
  | succ n ih =>
    rcases List.eq_nil_or_concat post with rfl | ⟨post', y, rfl⟩
    · cases hn
    · rw [List.concat_eq_append, ← List.append_assoc] at h'
      obtain ⟨w0, h0, hs⟩ := run_last h'
      exact (ih h0 (by simpa using hn)).trans (sent_step h0 hs b)

/-! ## What brokers have received -/

theorem frame_front {f g : MessageCommand × Bytes} (hf : Framed.IsFrame f) (hg : Framed.IsFrame g) {x y : Bytes}
    (h : f.2 ++ x = g.2 ++ y) : f.1 = g.1 ∧ x = y := by
  have d1 := hf.decode x
  have d2 := hg.decode y
  rw [h, d2] at d1
  simp only [Outcome.ok.injEq, Option.some.injEq, Prod.mk.injEq] at d1
  exact ⟨d1.1.symm, d1.2.symm⟩

theorem frames_front {fs gs : List (MessageCommand × Bytes)} (hf : ∀ f ∈ fs, Framed.IsFrame f) (hg : ∀ g ∈ gs, Framed.IsFrame g)
    (h : Framed.stream fs <+: Framed.stream gs) : fs.map (·.1) <+: gs.map (·.1) := by
  induction fs generalizing gs with
  | nil => exact List.nil_prefix
  | cons f fs ih =>
    cases gs with
    | nil =>
      obtain ⟨x, hx⟩ := h
      rw [Framed.stream_cons] at hx
      have : f.2 = [] := by
        have : f.2 ++ (Framed.stream fs ++ x) = [] := by rw [← List.append_assoc]; exact hx
        exact (List.append_eq_nil_iff.mp this).1
      exact absurd this (hf f (by simp)).ne_nil
    | cons g gs =>
      obtain ⟨x, hx⟩ := h
      rw [Framed.stream_cons, Framed.stream_cons, List.append_assoc] at hx
      obtain ⟨h1, h2⟩ := frame_front (hf f (by simp)) (hg g (by simp)) hx
      have := ih (fun f hm => hf f (List.mem_cons_of_mem _ hm)) (fun g hm => hg g (List.mem_cons_of_mem _ hm)) ⟨x, h2⟩
      rw [List.map_cons, List.map_cons, h1]
      exact (List.prefix_cons_inj _).mpr this

/-- Everything handed to the socket of `b`: whole frames of commands the connection took, in order. -/
theorem frames_of {cfg : Cfg T} {acts : List Act} {w : World T} (h : Run cfg acts w) (hv : Fits w) (b : BrokerAddress) :
    ∃ l : List (Sys.ConnCmd × (MessageCommand × Bytes)), (w.tx b).sent ++ (w.tx b).buffer = Framed.stream (l.map (·.2)) ∧
      (l.map (·.1)).Sublist (w.sys.conns b).processed ∧
      ∀ x ∈ l, (∃ now, x.1.out.toCommand now = .ok x.2.1) ∧ Framed.IsFrame x.2 := by
  obtain ⟨l, h1, h2, h3, h4⟩ := wrote h b
  have hx : ∃ l' : List (Sys.ConnCmd × (MessageCommand × Bytes)), l'.map (fun x => (x.1, x.2.2)) = l ∧
      (∀ x ∈ l', (∃ now, x.1.out.toCommand now = .ok x.2.1) ∧ Framed.IsFrame x.2) := by
    clear h2 h4
    induction l with
    | nil => exact ⟨[], rfl, fun x hx => by cases hx⟩
    | cons y l ih =>
      obtain ⟨l', k1, k2⟩ := ih (fun x hx => h1 x (List.mem_cons_of_mem _ hx)) ((List.sublist_cons_self _ _).trans h3)
      obtain ⟨now, hnow⟩ := h1 y (by simp)
      have hy : y.1 ∈ (w.sys.conns b).processed := h3.subset (by simp)
      obtain ⟨hval, hfit⟩ := hv b y.1 hy
      obtain ⟨item, t1, t2, t3⟩ := toCommand_ok now y.1.out hval
      have hs := parts_sendable item t2 t3 (Nat.lt_of_le_of_lt (size_le now _ item t1) hfit)
      rw [t1] at hnow
      have hb : Codec.encode cfg.overflowChecks item = .ok y.2 := hnow
      rw [Codec.encode_layout _ item _ _ hs.serialises hs.fits] at hb
      have hb := Outcome.ok.inj hb
      refine ⟨(y.1, (item, y.2)) :: l', by rw [List.map_cons, k1], ?_⟩
      intro x hx
      rcases List.mem_cons.mp hx with rfl | hx
      · exact ⟨⟨now, t1⟩, by rw [← hb]; exact Framed.isFrame_of hs⟩
      · exact k2 x hx
  obtain ⟨l', k1, k2⟩ := hx
  refine ⟨l', ?_, ?_, k2⟩
  · rw [h2, ← k1]; unfold Framed.stream; simp [Function.comp_def]
  · rw [← k1] at h3; simpa [Function.comp_def] using h3

/-- So what a broker has received are commands the connection took, in order. -/
theorem received_of {cfg : Cfg T} {acts : List Act} {w : World T} (h : Run cfg acts w) (hv : Fits w) (b : BrokerAddress)
    {frames : List (MessageCommand × Bytes)} (hf : BeginsWith (w.tx b).sent frames) :
    ∃ l : List (Sys.ConnCmd × MessageCommand), (l.map (·.1)).Sublist (w.sys.conns b).processed ∧
      l.map (·.2) = frames.map (·.1) ∧ ∀ x ∈ l, ∃ now, x.1.out.toCommand now = .ok x.2 := by
  obtain ⟨l, h1, h2, h3⟩ := frames_of h hv b
  have hp := frames_front hf.1 (gs := l.map (·.2))
    (fun g hg => by obtain ⟨x, hx, rfl⟩ := List.mem_map.mp hg; exact (h3 x hx).2)
    (hf.2.trans (by rw [← h1]; exact List.prefix_append ..))
  rw [List.map_map] at hp
  refine ⟨(l.map fun x => (x.1, x.2.1)).take frames.length, ?_, ?_, ?_⟩
  · refine List.Sublist.trans ?_ h2
    rw [List.map_take, List.map_map]
    exact List.take_sublist ..
  · rw [List.map_take, List.map_map]
    have := List.prefix_iff_eq_take.mp hp
    rw [List.length_map] at this
    exact this.symm
  · intro x hx
    obtain ⟨y, hy, rfl⟩ := List.mem_map.mp (List.mem_of_mem_take hx)
    exact (h3 y hy).1

end Neutron.World
