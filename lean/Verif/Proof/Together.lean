import Verif.Proof.SysCancel
import Verif.Proof.AppLive
import Verif.Props.Requests
import Verif.Spec.Together

/-!
# Why a request is cancelled, with the history
-/

namespace Neutron.World

open Neutron

variable {T : Type}

theorem Together.mono {cfg : Cfg T} {log log' : List Act} {t t' : Nat} (h : Together cfg log t t') (hp : log <+: log') :
    Together cfg log' t t' := by
  obtain ⟨l, w, h1, h2⟩ := h
  exact ⟨l, w, h1.trans hp, h2⟩

theorem confusable_of_key {i i' : Nat} {out out' : Outbound} {k : Key} (hb : Sys.ByCall i out) (hb' : Sys.ByCall i' out')
    (h : out.tryKey = some k) (h' : out'.tryKey = some k) : Sys.Confusable out out' := by
  obtain ⟨inb, hinb⟩ : ∃ inb : Inbound, inb.tryKey = some k := by
    obtain ⟨core, call, _, hr, rfl⟩ := hb
    cases call <;> simp only [Client.issue, Outbound.tryKey, Option.some.injEq] at h <;> subst h
    · exact ⟨.connected, rfl⟩
    · exact ⟨.connected, rfl⟩
    · exact ⟨.lookupTopicResponse ⟨0, "", "", .failed, false, false⟩, rfl⟩
    · exact ⟨.producerSuccess ⟨0, ""⟩, rfl⟩
    · exact ⟨.success 0, rfl⟩
    · exact ⟨.ackReciept ⟨0, 0⟩, rfl⟩
    · exact ⟨.sendReceipt ⟨0, core.sequenceId, []⟩, rfl⟩
    · exact ⟨.sendReceipt ⟨0, core.sequenceId, []⟩, rfl⟩
    · cases hr
  exact ⟨inb, Props.answers_of_key hb h hinb, Props.answers_of_key hb' h' hinb⟩

theorem reachable_of_run {cfg : Cfg T} {log : List Act} {w : World T} (h : Run cfg log w) : Sys.Reachable cfg.sys w.sys := by
  obtain ⟨l, _, hp⟩ := proj h
  exact ⟨l, hp.sys⟩

theorem issued_world {cfg : Cfg T} {w w' : World T} {x : Act} (hs : World.step cfg w x = some w') {t : Nat} {y : Nat × Outbound}
    (h : w.sys.issued[t]? = some y) : w'.sys.issued[t]? = some y := by
  obtain ⟨as, ha, _⟩ := App.world_acts hs
  refine App.sysSteps_mono (fun _ => True) (fun s => s.issued[t]? = some y) ?_ (fun _ _ => trivial) h ha
  intro s a s' hx _ h1
  obtain ⟨l, hl⟩ := Sys.issued_step h1
  rw [← hl]; exact Sys.getElem?_append_some hx

/-- While the engine has not stopped, a cancelled request was outstanding together with another one that the same response answers. -/
theorem displaced_of_cancelled {cfg : Cfg T} {log : List Act} {w : World T} (h : Run cfg log w) (hm : w.sys.mode ≠ .stopped) {t : Nat}
    (ht : (t, Sys.TokResult.cancelled) ∈ w.sys.outcomes) : ∃ i', DisplacedBy cfg log w.sys t i' := by
  induction h with
  | nil => simp [World.init, Sys.init] at ht
  | @snoc log w w' x h hs ih =>
    have keep : ∀ {i'}, DisplacedBy cfg log w.sys t i' → DisplacedBy cfg (log ++ [x]) w'.sys t i' := by
      rintro i' ⟨t', i, out, out', h1, h2, h3, h4, h5⟩
      exact ⟨t', i, out, out', h1, issued_world hs h2, issued_world hs h3, h4, h5.mono (List.prefix_append ..)⟩
    have hms : w.sys.mode ≠ .stopped := by
      intro hst
      obtain ⟨as, ha, _⟩ := App.world_acts hs
      exact hm (App.sysSteps_mono (fun _ => True) (fun s => s.mode = .stopped) (fun s a s' h1 _ h2 => Sys.stopped_step h2 h1)
        (fun _ _ => trivial) hst ha)
    by_cases hc : (t, Sys.TokResult.cancelled) ∈ w.sys.outcomes
    · exact (ih hms hc).imp fun _ => keep
    · have hr := reachable_of_run h
      have none : ∀ {as : List Sys.Act}, sysSteps cfg.sys w.sys as = some w'.sys → ¬ ∀ y ∈ as, ∀ i auth net, y ≠ .engOut i auth net := by
        intro as ha hne
        suffices hx : Sys.Reachable cfg.sys w'.sys ∧ (w'.sys.mode = .stopped ∨ (t, Sys.TokResult.cancelled) ∉ w'.sys.outcomes) by
          rcases hx.2 with hx | hx
          · exact hm hx
          · exact hx ht
        refine App.sysSteps_mono (fun y => ∀ i auth net, y ≠ Sys.Act.engOut i auth net)
          (fun s => Sys.Reachable cfg.sys s ∧ (s.mode = .stopped ∨ (t, Sys.TokResult.cancelled) ∉ s.outcomes)) ?_ hne ⟨hr, .inr hc⟩ ha
        rintro s a s' ⟨hr, h1⟩ hy h2
        refine ⟨hr.step h2, ?_⟩
        by_cases hst : s'.mode = .stopped
        · exact .inl hst
        · refine .inr fun hx => ?_
          rcases Sys.cancels hr h2 hst hx with h3 | ⟨⟨i, auth, net, h3⟩, _⟩
          · rcases h1 with h1 | h1
            · exact hst (Sys.stopped_step h2 h1)
            · exact h1 h3
          · exact hy _ _ _ h3
      obtain ⟨as, ha, ⟨y, rfl, rfl⟩ | hy | rfl | ⟨n, rfl⟩⟩ := App.world_acts hs
      · simp only [sysSteps] at ha
        cases h1 : Sys.step cfg.sys w.sys y with
        | none => rw [h1] at ha; cases ha
        | some s =>
          simp only [h1, Option.some.injEq] at ha
          subst ha
          rcases Sys.cancels hr h1 hm ht with h3 | ⟨_, o1, t', o2, h4, i, i', out, out', k, h5, h6, h7, h8⟩
          · exact absurd h3 hc
          · refine ⟨i', keep ⟨t', i, out, out', h4, h5, h6, ?_, _, _, List.prefix_rfl, h, o1, o2⟩⟩
            exact confusable_of_key ((Sys.req hr).issued _ _ _ h5).2 ((Sys.req hr).issued _ _ _ h6).2 h7 h8
      · refine absurd ?_ (none ha)
        intro y hy' i auth net he
        rcases hy y hy' with ⟨b, ⟨r, h1⟩ | ⟨r, h1⟩⟩ <;> (rw [he] at h1; cases h1)
      · exact absurd (by simp) (none ha)
      · exact absurd (by simp) (none ha)

end Neutron.World
