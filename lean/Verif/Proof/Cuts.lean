import Verif.Spec.Cuts
import Verif.Proof.CodecEdge

/-!
# However the bytes are cut: proof
-/

namespace Neutron.Codec

theorem decode_more (a b : Bytes) :
    (∀ m rest, decode a = .ok (some (m, rest)) → decode (a ++ b) = .ok (some (m, rest ++ b))) ∧
    (decode a = .panic → decode (a ++ b) = .panic) := by
  cases hr : readBe32 a with
  | none => exact ⟨fun m rest h => (by simp [decode, hr] at h), fun h => (by simp [decode, hr] at h)⟩
  | some x =>
    obtain ⟨n, r⟩ := x
    have hr' : readBe32 (a ++ b) = some (n, r ++ b) := by
      match a, hr with
      | a1 :: a2 :: a3 :: a4 :: r0, hr =>
        simp only [readBe32, Option.some.injEq, Prod.mk.injEq, List.cons_append] at hr ⊢
        exact ⟨hr.1, by rw [hr.2]⟩
    unfold decode
    simp only [hr, hr']
    by_cases hl : n + 4 ≤ a.length
    · have hl' : n + 4 ≤ (a ++ b).length := by
        simp only [List.length_append]; omega
      rw [if_pos hl, if_pos hl', List.take_append_of_le_length hl, List.drop_append_of_le_length hl]
      cases hd : decodeFrame (List.take (n + 4) a) with
      | ok v =>
        refine ⟨fun m rest h => ?_, fun h => (by cases h)⟩
        cases h
        rfl
      | err e => exact ⟨fun m rest h => (by cases h), fun h => (by cases h)⟩
      | panic => exact ⟨fun m rest h => (by cases h), fun _ => rfl⟩
    · rw [if_neg hl]
      exact ⟨fun m rest h => (by cases h), fun h => (by cases h)⟩

end Neutron.Codec

namespace Neutron.Framed

/-- The same bytes wait to be read, cut in another way. -/
inductive Recut : Framed × List Read → Framed × List Read → Prop where
  | refl (r : Framed × List Read) : Recut r r
  | symm {r r' : Framed × List Read} : Recut r r' → Recut r' r
  | trans {r r' r'' : Framed × List Read} : Recut r r' → Recut r' r'' → Recut r r''
  | join (f : Framed) (l : List Read) (p q : Bytes) (l' : List Read) :
      Recut (f, l ++ .data p :: .data q :: l') (f, l ++ .data (p ++ q) :: l')
  | absorb (p q : Bytes) (l : List Read) :
      Recut (⟨p, false, true, false⟩, .data q :: l) (⟨p ++ q, false, true, false⟩, l)

theorem recut_arrive {r r' : Framed × List Read} (h : Recut r r') (e : Read) : Recut (r.1, r.2 ++ [e]) (r'.1, r'.2 ++ [e]) := by
  induction h with
  | refl r => exact .refl _
  | symm _ ih => exact .symm ih
  | trans _ _ ih ih' => exact .trans ih ih'
  | join f l p q l' =>
    simp only [List.append_assoc, List.cons_append]
    exact .join f l p q _
  | absorb p q l => exact .absorb p q _

theorem pollNext_some {f f' : Framed} {p : Poll} (h : attempt f = some (p, f')) (rs : List Read) : pollNext f rs = (p, f', rs) := by
  cases rs with
  | nil => simp only [pollNext, h]
  | cons r rs => simp only [pollNext, h]

theorem poll_absorb (p q : Bytes) (l : List Read) :
    (pollNext ⟨p ++ q, false, true, false⟩ l).1 = (pollNext ⟨p, false, true, false⟩ (.data q :: l)).1 ∧
    Recut (pollNext ⟨p, false, true, false⟩ (.data q :: l)).2 (pollNext ⟨p ++ q, false, true, false⟩ l).2 := by
  have hm := Codec.decode_more p q
  cases hd : Codec.decode p with
  | ok o =>
    cases o with
    | none =>
      have h1 : attempt ⟨p, false, true, false⟩ = none := by simp [attempt, hd]
      have : pollNext ⟨p, false, true, false⟩ (.data q :: l) = pollNext ⟨p ++ q, false, true, false⟩ l := by
        rw [pollNext]; simp only [h1]
      rw [this]
      exact ⟨rfl, .refl _⟩
    | some x =>
      obtain ⟨m, rest⟩ := x
      have h1 : attempt ⟨p, false, true, false⟩ = some (.item m, ⟨rest, false, true, false⟩) := by simp [attempt, hd]
      have h2 : attempt ⟨p ++ q, false, true, false⟩ = some (.item m, ⟨rest ++ q, false, true, false⟩) := by
        simp [attempt, hm.1 m rest hd]
      rw [pollNext_some h1, pollNext_some h2]
      exact ⟨rfl, .absorb _ _ _⟩
  | err e => exact absurd hd (Codec.decode_no_err p e)
  | panic =>
    have h1 : attempt ⟨p, false, true, false⟩ = some (.panicked, ⟨p, false, true, false⟩) := by simp [attempt, hd]
    have h2 : attempt ⟨p ++ q, false, true, false⟩ = some (.panicked, ⟨p ++ q, false, true, false⟩) := by
      simp [attempt, hm.2 hd]
    rw [pollNext_some h1, pollNext_some h2]
    exact ⟨rfl, .absorb _ _ _⟩

theorem poll_join (p q : Bytes) (l' : List Read) : ∀ (l : List Read) (f : Framed),
    (pollNext f (l ++ .data (p ++ q) :: l')).1 = (pollNext f (l ++ .data p :: .data q :: l')).1 ∧
    Recut (pollNext f (l ++ .data p :: .data q :: l')).2 (pollNext f (l ++ .data (p ++ q) :: l')).2 := by
  intro l
  induction l with
  | nil =>
    intro f
    cases ha : attempt f with
    | some x =>
      obtain ⟨o, f'⟩ := x
      rw [pollNext_some ha, pollNext_some ha]
      exact ⟨rfl, .join f' [] p q l'⟩
    | none =>
      have he : f.errored = false := by
        cases he : f.errored with
        | false => rfl
        | true => simp [attempt, he] at ha
      simp only [List.nil_append, pollNext, ha]
      have := poll_absorb (f.buf ++ p) q l'
      simp only [he, List.append_assoc, pollNext] at this ⊢
      exact this
  | cons c l ih =>
    intro f
    cases ha : attempt f with
    | some x =>
      obtain ⟨o, f'⟩ := x
      rw [pollNext_some ha, pollNext_some ha]
      exact ⟨rfl, .join f' (c :: l) p q l'⟩
    | none =>
      simp only [List.cons_append, pollNext, ha]
      cases c with
      | data d => exact ih _
      | eof =>
        dsimp only
        split
        · exact ⟨rfl, .join _ l p q l'⟩
        · exact ih _
      | ioErr => exact ⟨rfl, .join _ l p q l'⟩

theorem recut_poll {r r' : Framed × List Read} (h : Recut r r') :
    (pollNext r'.1 r'.2).1 = (pollNext r.1 r.2).1 ∧ Recut (pollNext r.1 r.2).2 (pollNext r'.1 r'.2).2 := by
  induction h with
  | refl r => exact ⟨rfl, .refl _⟩
  | symm _ ih => exact ⟨ih.1.symm, .symm ih.2⟩
  | trans _ _ ih ih' => exact ⟨ih'.1.trans ih.1, .trans ih.2 ih'.2⟩
  | join f l p q l' => exact poll_join p q l' l f
  | absorb p q l => exact poll_absorb p q l

/-- The read sides differ only in how the unread bytes are cut. -/
structure Same (r r' : ReadSide) : Prop where
  out : r'.out = r.out
  stopped : r'.stopped = r.stopped
  unread : Recut (r.framed, r.socket) (r'.framed, r'.socket)

theorem Same.refl (r : ReadSide) : Same r r := ⟨rfl, rfl, .refl _⟩
theorem Same.symm {r r' : ReadSide} (h : Same r r') : Same r' r := ⟨h.out.symm, h.stopped.symm, h.unread.symm⟩

theorem Same.arrive {r r' : ReadSide} (h : Same r r') (e : Read) : Same (r.step (.arrive e)) (r'.step (.arrive e)) :=
  ⟨h.out, h.stopped, recut_arrive h.unread e⟩

theorem Same.poll {r r' : ReadSide} (h : Same r r') : Same (r.step .poll) (r'.step .poll) := by
  obtain ⟨h1, h2⟩ := recut_poll h.unread
  unfold ReadSide.step
  simp only [h.stopped]
  split
  · exact h
  · revert h1 h2
    dsimp only
    generalize pollNext r.framed r.socket = o
    generalize pollNext r'.framed r'.socket = o'
    obtain ⟨p, f, rs⟩ := o
    obtain ⟨p', f', rs'⟩ := o'
    intro h1 h2
    simp only [] at h1 h2
    subst h1
    cases p' <;> exact ⟨by simp [h.out], by simp [h.stopped], h2⟩

end Neutron.Framed

namespace Neutron.World

variable {T : Type}

/-- The worlds differ only in how unread bytes are cut. -/
structure Cut (w v : World T) : Prop where
  world : v = { w with rx := v.rx }
  rx : ∀ b, Framed.Same (w.rx b) (v.rx b)

theorem Cut.symm {w v : World T} (h : Cut w v) : Cut v w :=
  ⟨by rw [h.world], fun b => (h.rx b).symm⟩

theorem cut_step {cfg : Cfg T} {w v w' : World T} (h : Cut w v) {a : Act} (hs : step cfg w a = some w') :
    ∃ v', step cfg v a = some v' ∧ Cut w' v' := by
  obtain ⟨hw, hrx⟩ := h
  obtain ⟨rx, hv⟩ : ∃ rx, v.rx = rx := ⟨_, rfl⟩
  rw [hv] at hw hrx
  subst hw
  cases a with
  | arrive b r =>
    simp only [step] at hs ⊢
    split at hs
    · rename_i hb
      cases hs
      refine ⟨_, if_pos hb, rfl, fun c => ?_⟩
      dsimp only
      split
      · exact (hrx b).arrive r
      · exact hrx c
    · cases hs
  | poll b answers =>
    have hp := (Framed.recut_poll (hrx b).unread).1
    simp only [step] at hs ⊢
    split at hs
    · rename_i hb
      rw [if_pos (show reading { w with rx := rx } b = true from hb), hp]
      split at hs
      · rename_i s h2
        cases hs
        rw [h2]
        refine ⟨_, rfl, rfl, fun c => ?_⟩
        dsimp only [sync]
        split
        · exact (hrx b).poll
        · exact hrx c
      · cases hs
    · cases hs
  | write b now io =>
    simp only [step] at hs ⊢
    split at hs
    · rename_i hb
      rw [if_pos (show running { w with rx := rx } b = true from hb)]
      split at hs
      · rename_i hq
        split at hs
        · rename_i s h2
          cases hs
          exact ⟨_, rfl, rfl, hrx⟩
        · cases hs
      · rename_i c q hq
        split at hs
        · rename_i t r h1
          split at hs
          · rename_i s h2
            cases hs
            exact ⟨_, rfl, rfl, hrx⟩
          · cases hs
        · cases hs
    · cases hs
  | hold b =>
    simp only [step] at hs ⊢
    split at hs
    · rename_i hb
      cases hs
      exact ⟨_, if_pos hb, rfl, hrx⟩
    · cases hs
  | serve i =>
    simp only [step] at hs ⊢
    split at hs
    · rename_i hb
      cases hs
      exact ⟨_, if_pos hb, rfl, hrx⟩
    · cases hs
  | sys a =>
    simp only [step] at hs ⊢
    split at hs
    · rename_i hb
      rw [if_pos (show free cfg { w with rx := rx } a = true from hb)]
      split at hs
      · rename_i s h2
        cases hs
        exact ⟨_, rfl, rfl, hrx⟩
      · cases hs
    · cases hs
  | app a =>
    simp only [step] at hs ⊢
    split at hs
    · rename_i hb
      rw [if_pos (show own cfg { w with rx := rx } a = true from hb)]
      split at hs
      · rename_i s h2
        split at hs
        · rename_i u h3
          cases hs
          rw [show induced cfg { w with rx := rx } a = induced cfg w a from by cases a <;> rfl, h3]
          exact ⟨_, rfl, rfl, hrx⟩
        · cases hs
      · cases hs
    · cases hs

end Neutron.World

namespace Neutron.App

open Neutron.World (World)

variable {T : Type}

/-- The states differ only in how unread bytes are cut. -/
structure Cut (x y : State T) : Prop where
  jobs : y.jobs = x.jobs
  world : World.Cut x.world y.world

theorem Cut.symm {x y : State T} (h : Cut x y) : Cut y x := ⟨h.jobs.symm, h.world.symm⟩

theorem cut_worldSteps {cfg : World.Cfg T} : ∀ {as : List World.Act} {w v w' : World T}, World.Cut w v → worldSteps cfg w as = some w' →
    ∃ v', worldSteps cfg v as = some v' ∧ World.Cut w' v' := by
  intro as
  induction as with
  | nil => intro w v w' h hs; cases hs; exact ⟨v, rfl, h⟩
  | cons a as ih =>
    intro w v w' h hs
    simp only [worldSteps] at hs ⊢
    split at hs
    · rename_i w1 h1
      obtain ⟨v1, h2, h3⟩ := World.cut_step h h1
      rw [h2]
      exact ih h3 hs
    · cases hs

theorem cut_sys {w v : World T} (h : World.Cut w v) : v.sys = w.sys := by rw [h.world]

theorem cut_step {cfg : World.Cfg T} {x y x' : State T} (h : Cut x y) {a : Act} (hs : step cfg x a = some x') :
    ∃ y', step cfg y a = some y' ∧ Cut x' y' := by
  obtain ⟨w, js⟩ := x
  obtain ⟨v, js'⟩ := y
  obtain ⟨hj, hw⟩ := h
  simp only [] at hj hw
  subst hj
  have hy := cut_sys hw
  have h1 : possible cfg ⟨v, js'⟩ a = possible cfg ⟨w, js'⟩ a := by
    have hf : ∀ u, free cfg ⟨v, js'⟩ u = free cfg ⟨w, js'⟩ u := by
      intro u
      unfold free
      split <;> rfl
    cases a with
    | world u => exact hf u
    | start c => simp only [possible]; cases c <;> simp only [Start.possible, hy]
    | run k => simp only [possible, hy]
    | drop k => simp only [possible]
  have h2 : induced ⟨v, js'⟩ a = induced ⟨w, js'⟩ a := by
    cases a <;> simp only [induced, hy]
  unfold step at hs ⊢
  rw [h1, h2]
  split at hs
  · rename_i hp
    rw [if_pos hp]
    simp only [] at hs ⊢
    split at hs
    · rename_i w' h3
      cases hs
      obtain ⟨v', h4, h5⟩ := cut_worldSteps hw h3
      rw [h4]
      refine ⟨_, rfl, ?_, h5⟩
      simp only [cut_sys h5]
      cases a <;> simp only [jobsAfter, hy]
    · cases hs
  · cases hs

theorem cut_same {cfg : World.Cfg T} {x y : State T} (h : Cut x y) : SameWay cfg x y := by
  refine ⟨Cut, h, fun x y h => ⟨⟨h.jobs, h.world.world, fun b => (h.world.rx b).out, fun b => (h.world.rx b).stopped⟩, ?_, ?_⟩⟩
  · intro a x' hs
    exact cut_step h hs
  · intro a y' hs
    obtain ⟨x', h1, h2⟩ := cut_step h.symm hs
    exact ⟨x', h1, h2.symm⟩

end Neutron.App
