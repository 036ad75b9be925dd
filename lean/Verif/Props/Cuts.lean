import Verif.Proof.Cuts

/-!
# C156 However the bytes are cut
-/

namespace Neutron.Props

open Neutron Neutron.App

variable {T : Type}

/-- Pieces that have arrived wait to be read. -/
theorem arrives_waits {cfg : World.Cfg T} {b : BrokerAddress} {ps : List Bytes} {x y : State T} (h : Arrives cfg b x ps y) :
    y.jobs = x.jobs ∧ y.world = { x.world with rx := y.world.rx } ∧ (∀ c, c ≠ b → y.world.rx c = x.world.rx c) ∧
      y.world.rx b = { x.world.rx b with socket := (x.world.rx b).socket ++ ps.map .data } := by
  induction h with
  | nil x => exact ⟨rfl, rfl, fun _ _ => rfl, by simp⟩
  | @cons x z y p ps hz _ ih =>
    obtain ⟨h1, h2, h3, h4⟩ := ih
    simp only [step, possible, App.free, if_true, induced, worldSteps, World.step] at hz
    split at hz
    · rename_i w hw
      split at hw
      · rename_i v hv
        cases hw
        split at hv
        · cases hv
          cases hz
          refine ⟨h1, h2, fun c hc => ?_, ?_⟩
          · rw [h3 c hc]
            exact if_neg hc
          · rw [h4]
            simp [Framed.ReadSide.step]
        · cases hv
      · cases hw
    · cases hz

/-- All pieces put together. -/
theorem recut_flatten (f : Framed) : ∀ (ps : List Bytes) (l : List Read), ps ≠ [] →
    Framed.Recut (f, l ++ ps.map .data) (f, l ++ [.data ps.flatten]) := by
  intro ps
  induction ps with
  | nil => intro l h; exact absurd rfl h
  | cons p ps ih =>
    intro l _
    cases ps with
    | nil => simp only [List.map_cons, List.map_nil, List.flatten_cons, List.flatten_nil, List.append_nil]; exact .refl _
    | cons q ps =>
      have h1 := Framed.Recut.join f l p (q :: ps).flatten []
      have h2 := ih (l ++ [.data p]) (by simp)
      simp only [List.append_assoc, List.cons_append, List.nil_append] at h2
      exact h2.trans h1

/-- However TCP cuts what a broker sends, the application cannot tell: after the same bytes have arrived in other pieces the instance goes the
same way, step by step, for ever. -/
theorem C156_cuts {cfg : World.Cfg T} {x y z : State T} {b : BrokerAddress} {ps qs : List Bytes} (hp : Arrives cfg b x ps y)
    (hq : Arrives cfg b x qs z) (h : ps.flatten = qs.flatten) (hp0 : ps ≠ []) (hq0 : qs ≠ []) : SameWay cfg y z := by
  obtain ⟨a1, a2, a3, a4⟩ := arrives_waits hp
  obtain ⟨b1, b2, b3, b4⟩ := arrives_waits hq
  refine cut_same ⟨b1.trans a1.symm, by rw [b2, a2], fun c => ?_⟩
  by_cases hc : c = b
  · subst hc
    rw [a4, b4]
    refine ⟨rfl, rfl, ?_⟩
    have h1 := recut_flatten (x.world.rx c).framed ps (x.world.rx c).socket hp0
    have h2 := recut_flatten (x.world.rx c).framed qs (x.world.rx c).socket hq0
    rw [h] at h1
    exact h1.trans h2.symm
  · rw [a3 c hc, b3 c hc]
    exact .refl _

/-- In particular: whatever the application can go on to see after the one, it can see after the other. -/
theorem C156_same_future {cfg : World.Cfg T} {x y z : State T} {b : BrokerAddress} {ps qs : List Bytes} (hp : Arrives cfg b x ps y)
    (hq : Arrives cfg b x qs z) (h : ps.flatten = qs.flatten) (hp0 : ps ≠ []) (hq0 : qs ≠ []) {acts : List App.Act} {y' : State T}
    (ha : Does cfg y acts y') : ∃ z', Does cfg z acts z' ∧ SameButUnread y' z' := by
  obtain ⟨R, hR, hb⟩ := C156_cuts hp hq h hp0 hq0
  clear hp hq
  induction ha generalizing z with
  | nil x => exact ⟨z, .nil z, (hb _ _ hR).1⟩
  | cons hs _ ih =>
    obtain ⟨z1, h1, h2⟩ := (hb _ _ hR).2.1 _ _ hs
    obtain ⟨z', h3, h4⟩ := ih h2
    exact ⟨z', .cons h1 h3, h4⟩

end Neutron.Props
