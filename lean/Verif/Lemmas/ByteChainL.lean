import Verif.ByteChain
import Verif.Lemmas.QueryCodecL3
import Verif.Props.Codec
/-! # The byte-level machine and the typed machine -/

namespace Halo
open _root_.Halo.Spec
namespace ByteChain
open QueryCodec Codec

/-- A frame whose message can be on the wire. -/
def FrameOnWire : Frame → Prop
  | .msg _ sm => OnWire sm.msg
  | .reply _ _ _ => True

theorem sent_heard {f : Frame} (h : FrameOnWire f) : f.sent.heard = f := by
  cases f with
  | reply a i o => rfl
  | msg s sm =>
    obtain ⟨cm, id⟩ := sm
    cases cm with
    | exec t m l =>
      show Frame.msg s ⟨.exec t (classify (writeExec m)) l, id⟩ = _
      rw [classify_write h]
    | inst a k m l =>
      show Frame.msg s ⟨.inst a k (classifyInst (writeInst m)) l, id⟩ = _
      rw [classifyInst_write h]
    | _ => rfl

theorem sent_heard_all {fs : List Frame} (h : ∀ f ∈ fs, FrameOnWire f) : (fs.map Frame.sent).map RawFrame.heard = fs := by
  rw [List.map_map]
  conv => rhs; rw [← List.map_id fs]
  exact List.map_congr_left fun f hf => sent_heard (h f hf)

theorem heard_onWire (f : RawFrame) : FrameOnWire f.heard := by
  cases f with
  | reply a i o => trivial
  | msg s sm =>
    obtain ⟨cm, id⟩ := sm
    cases cm with
    | exec t m l => exact classify_wellFormed m
    | inst a k m l => exact classifyInst_wellFormed m
    | _ => trivial

theorem rawReply_eq (s : Addr) (id : Option Nat) (o : Option Addr) : rawReply s id o = (replyFrame s id o).map Frame.sent := by
  cases id <;> rfl

theorem rawReply_heard (s : Addr) (id : Option Nat) (o : Option Addr) : (rawReply s id o).map RawFrame.heard = replyFrame s id o := by
  cases id <;> rfl

/-- What the contracts send can be on the wire. -/
theorem step_onWire {c : Chain} {adv : Adv} {n : Nat} {w w' : World} {f : Frame} {fs : List Frame} (hw : Wire.Typed w)
    (hs : step c adv n w f = .ok (w', fs)) (hf : ¬ RunsForeign c w f) (hon : FrameOnWire f) : ∀ g ∈ fs, FrameOnWire g := by
  intro g hg
  cases g with
  | reply _ _ _ => trivial
  | msg src sm =>
    refine (step_authored (step_inv hs) hf src sm hg).onWire ((hw.step (step_inv hs)).2 hf src sm hg) fun x hx => ?_
    cases f with
    | reply a i o => cases hx
    | msg s g =>
      have := hon
      obtain ⟨cm, id⟩ := g
      cases cm with
      | exec t m l =>
        have hx : payloadOf m = some x := hx
        have hm : WellFormed m := this
        refine ⟨payload_plain hm hx, ?_⟩
        have hfit := hm.fits
        rw [wireNumbers, Wire.fitsAll_append, Wire.fitsAll_append, hx] at hfit
        simpa using hfit.1.2
      | _ => cases hx

theorem map_ok {α β : Type} {x : R α} {f : α → β} {y : β} : (x >>= fun a => pure (f a)) = .ok y ↔ ∃ a, x = .ok a ∧ f a = y := by
  cases x with
  | error e => exact ⟨fun h => (nomatch h), fun ⟨_, h, _⟩ => (nomatch h)⟩
  | ok a => exact ⟨fun h => ⟨a, rfl, by injection h⟩, fun ⟨b, h, e⟩ => by cases h; cases e; rfl⟩

/-- One of the four contracts is called. -/
theorem callRaw_iff {c : Chain} {adv : RawAdv} {n : Nat} {w : World} {self sender : Addr} {funds : List Coin} {b : Bytes}
    (hf : ∀ adm, w.contracts self ≠ some ⟨adm, .other⟩) {w' : World} {fs : List RawFrame} :
    callRaw c adv n w self sender funds b = .ok (w', fs) ↔
      ∃ fs0, callExecute c adv.heard n w self sender funds (classify b) = .ok (w', fs0) ∧ fs = fs0.map Frame.sent := by
  have key : callRaw c adv n w self sender funds b =
      (callBytes c adv.heard n w self sender funds b >>= fun p => pure (p.1, p.2.map Frame.sent)) := by
    unfold callRaw callBytes
    have hs := wire_same c (adv.query n) w queryDepth
    show _ = (_ >>= _)
    simp only
    rw [hs.pair_execute, hs.factory_execute, hs.router_execute]
    cases hc : w.contracts self with
    | none => rfl
    | some x =>
      obtain ⟨adm, s⟩ := x
      cases s with
      | other => exact absurd hc (hf adm)
      | _ =>
        dsimp only
        simp only [bind_assoc]
        congr 1
  rw [key, map_ok]
  constructor
  · rintro ⟨⟨w1, fs0⟩, h, e⟩
    injection e with e1 e2
    subst e1
    exact ⟨fs0, (C83_delivered c adv.heard n w self sender funds b _).mp h, e2.symm⟩
  · rintro ⟨fs0, h, rfl⟩
    exact ⟨(w', fs0), (C83_delivered c adv.heard n w self sender funds b _).mpr h, rfl⟩

theorem instRaw_iff {c : Chain} {adv : RawAdv} {n : Nat} {self sender : Addr} {k : Kind} {b : Bytes} (hk : k ≠ .other)
    {s : CState} {fs : List RawFrame} :
    instRaw c adv n self sender k b = .ok (s, fs) ↔
      ∃ fs0, callInstantiate c adv.heard n self sender k (classifyInst b) = .ok (s, fs0) ∧ fs = fs0.map Frame.sent := by
  have key : instRaw c adv n self sender k b =
      (callInstBytes c adv.heard n self sender k b >>= fun p => pure (p.1, p.2.map Frame.sent)) := by
    cases k <;> first | exact absurd rfl hk | rfl
  rw [key, map_ok]
  constructor
  · rintro ⟨⟨w1, fs0⟩, h, e⟩
    injection e with e1 e2
    subst e1
    exact ⟨fs0, (C83_inst_delivered c adv.heard n self sender k b _).mp h, e2.symm⟩
  · rintro ⟨fs0, h, rfl⟩
    exact ⟨(s, fs0), (C83_inst_delivered c adv.heard n self sender k b _).mpr h, rfl⟩

theorem heard_act {adv : RawAdv} {n : Nat} {self : Addr} {fs : List Frame} :
    (∃ ms, adv.heard.act n self = .ok ms ∧ ms.map (Frame.msg self) = fs) ↔
      ∃ rs, adv.frames n self = .ok rs ∧ rs.map RawFrame.heard = fs := by
  constructor
  · rintro ⟨ms, h, rfl⟩
    obtain ⟨rs, h', rfl⟩ := map_ok.mp h
    refine ⟨rs.map (RawFrame.msg self), map_ok.mpr ⟨rs, h', rfl⟩, ?_⟩
    rw [List.map_map, List.map_map]; rfl
  · rintro ⟨rs, h, rfl⟩
    obtain ⟨ms, h', rfl⟩ := map_ok.mp h
    refine ⟨ms.map RawSub.heard, map_ok.mpr ⟨ms, h', rfl⟩, ?_⟩
    rw [List.map_map, List.map_map]; rfl

/-- One step of the two machines. -/
theorem step_iff {c : Chain} {adv : RawAdv} {n : Nat} {w : World} (hw : Wire.Typed w) (f : RawFrame) {w' : World} {fs' : List Frame} :
    step c adv.heard n w f.heard = .ok (w', fs') ↔ ∃ fs, stepRaw c adv n w f = .ok (w', fs) ∧ fs.map RawFrame.heard = fs' := by
  have hon := heard_onWire f
  -- what is sent by the four contracts is heard as sent
  have back : ∀ {fs0}, step c adv.heard n w f.heard = .ok (w', fs0) → ¬ RunsForeign c w f.heard →
      (fs0.map Frame.sent).map RawFrame.heard = fs0 := fun hs hf => sent_heard_all (step_onWire hw hs hf hon)
  have go : ¬ RunsForeign c w f.heard →
      (∀ fs, stepRaw c adv n w f = .ok (w', fs) ↔ ∃ fs0, step c adv.heard n w f.heard = .ok (w', fs0) ∧ fs = fs0.map Frame.sent) →
      (step c adv.heard n w f.heard = .ok (w', fs') ↔ ∃ fs, stepRaw c adv n w f = .ok (w', fs) ∧ fs.map RawFrame.heard = fs') := by
    intro hf h
    constructor
    · intro hs
      exact ⟨_, (h _).mpr ⟨fs', hs, rfl⟩, back hs hf⟩
    · rintro ⟨fs, hs, rfl⟩
      obtain ⟨fs0, h0, rfl⟩ := (h _).mp hs
      rw [back h0 hf]; exact h0
  cases f with
  | reply self i o =>
    cases hc : w.contracts self with
    | none =>
      refine ⟨fun h => ?_, fun ⟨fs, h, _⟩ => ?_⟩
      · rw [RawFrame.heard, step, hc] at h; cases h
      · rw [stepRaw, hc] at h; cases h
    | some x =>
      obtain ⟨adm, s⟩ := x
      cases s with
      | other =>
        simp only [RawFrame.heard, step, stepRaw, hc, map_ok, Prod.mk.injEq]
        constructor
        · rintro ⟨ms, h, rfl, rfl⟩
          obtain ⟨rs, h1, h2⟩ := heard_act.mp ⟨ms, h, rfl⟩
          exact ⟨rs, ⟨rs, h1, rfl, rfl⟩, h2⟩
        · rintro ⟨fs, ⟨rs, h1, rfl, rfl⟩, rfl⟩
          obtain ⟨ms, h, e⟩ := heard_act.mpr ⟨rs, h1, rfl⟩
          exact ⟨ms, h, rfl, e⟩
      | token s =>
        refine ⟨fun h => ?_, fun ⟨fs, h, _⟩ => ?_⟩
        · rw [RawFrame.heard, step, hc] at h; cases h
        · rw [stepRaw, hc] at h; cases h
      | router s =>
        refine ⟨fun h => ?_, fun ⟨fs, h, _⟩ => ?_⟩
        · rw [RawFrame.heard, step, hc] at h; cases h
        · rw [stepRaw, hc] at h; cases h
      | pair s =>
        refine go (fun ⟨_, h⟩ => by rw [hc] at h; cases h) fun fs => ?_
        simp only [RawFrame.heard, step, stepRaw, hc, bind_eq_ok, pure_eq_ok, Prod.exists, Prod.mk.injEq]
        constructor
        · rintro ⟨s', r, h, rfl, rfl⟩; exact ⟨_, ⟨s', r, h, rfl, rfl⟩, rfl⟩
        · rintro ⟨_, ⟨s', r, h, rfl, rfl⟩, rfl⟩; exact ⟨s', r, h, rfl, rfl⟩
      | factory s =>
        refine go (fun ⟨_, h⟩ => by rw [hc] at h; cases h) fun fs => ?_
        have hs := wire_same c (adv.query n) w queryDepth
        simp only [RawFrame.heard, step, stepRaw, hc, bind_eq_ok, pure_eq_ok, Prod.exists, Prod.mk.injEq, hs.factory_reply]
        constructor
        · rintro ⟨s', r, h, rfl, rfl⟩; exact ⟨_, ⟨s', r, h, rfl, rfl⟩, rfl⟩
        · rintro ⟨_, ⟨s', r, h, rfl, rfl⟩, rfl⟩; exact ⟨s', r, h, rfl, rfl⟩
  | msg sender sm =>
    obtain ⟨cm, id⟩ := sm
    cases cm with
    | bankSend t l =>
      refine go (fun h => h) fun fs => ?_
      simp only [RawFrame.heard, RawSub.heard, RawMsg.heard, step, stepRaw, bind_eq_ok, pure_eq_ok, Prod.mk.injEq, rawReply_eq]
      constructor
      · rintro ⟨u, h1, a, h2, w1, h3, rfl, rfl⟩; exact ⟨_, ⟨u, h1, a, h2, w1, h3, rfl, rfl⟩, rfl⟩
      · rintro ⟨_, ⟨u, h1, a, h2, w1, h3, rfl, rfl⟩, rfl⟩; exact ⟨u, h1, a, h2, w1, h3, rfl, rfl⟩
    | migrate t k =>
      refine go (fun h => h) fun fs => ?_
      simp only [RawFrame.heard, RawSub.heard, RawMsg.heard, step, stepRaw, bind_eq_ok, pure_eq_ok, Prod.mk.injEq, rawReply_eq]
      constructor
      · rintro ⟨k, h0, a, h1, ct, h2, u, h3, rfl, rfl⟩; exact ⟨_, ⟨k, h0, a, h1, ct, h2, u, h3, rfl, rfl⟩, rfl⟩
      · rintro ⟨_, ⟨k, h0, a, h1, ct, h2, u, h3, rfl, rfl⟩, rfl⟩; exact ⟨k, h0, a, h1, ct, h2, u, h3, rfl, rfl⟩
    | updateAdmin t k =>
      refine go (fun h => h) fun fs => ?_
      simp only [RawFrame.heard, RawSub.heard, RawMsg.heard, step, stepRaw, bind_eq_ok, pure_eq_ok, Prod.mk.injEq, rawReply_eq]
      constructor
      · rintro ⟨a, h1, ct, h2, u, h3, ad, h4, rfl, rfl⟩; exact ⟨_, ⟨a, h1, ct, h2, u, h3, ad, h4, rfl, rfl⟩, rfl⟩
      · rintro ⟨_, ⟨a, h1, ct, h2, u, h3, ad, h4, rfl, rfl⟩, rfl⟩; exact ⟨a, h1, ct, h2, u, h3, ad, h4, rfl, rfl⟩
    | exec t b l =>
      by_cases hf : RunsForeign c w (RawFrame.msg sender ⟨.exec t b l, id⟩).heard
      · obtain ⟨a, adm, ha, hc⟩ := hf
        have hr : (classify b).inRange = true := fits_inRange (classify_wellFormed b).fits
        simp only [RawFrame.heard, RawSub.heard, RawMsg.heard, step, stepRaw, bind_eq_ok, pure_eq_ok, Prod.mk.injEq, Prod.exists]
        have e1 : ∀ w1, w1.contracts a = some ⟨adm, .other⟩ → callExecute c adv.heard n w1 a sender l (classify b) =
            (adv.heard.act n a >>= fun ms => pure (w1, ms.map (Frame.msg a))) := by
          intro w1 h1
          unfold callExecute
          rw [hr]
          simp only [h1]
          rfl
        have e2 : ∀ w1, w1.contracts a = some ⟨adm, .other⟩ → callRaw c adv n w1 a sender l b =
            (adv.frames n a >>= fun fs => pure (w1, fs)) := by
          intro w1 h1
          unfold callRaw
          simp only [h1]
        constructor
        · rintro ⟨a', h1, u, h2, w1, h3, w2, fs2, h4, rfl, rfl⟩
          obtain rfl : a = a' := by rw [ha] at h1; injection h1
          rw [e1 w1 (by rw [(moveCoins_inv h3).contracts]; exact hc), map_ok] at h4
          obtain ⟨ms, h4, e⟩ := h4
          injection e with e e'
          subst e
          obtain ⟨rs, h5, h6⟩ := heard_act.mp ⟨ms, h4, e'⟩
          refine ⟨rs ++ rawReply sender id none, ⟨a, h1, u, h2, w1, h3, w1, rs, ?_, rfl, rfl⟩, by rw [List.map_append, h6, rawReply_heard]⟩
          rw [e2 w1 (by rw [(moveCoins_inv h3).contracts]; exact hc), map_ok]
          exact ⟨rs, h5, rfl⟩
        · rintro ⟨_, ⟨a', h1, u, h2, w1, h3, w2, fs2, h4, rfl, rfl⟩, rfl⟩
          obtain rfl : a = a' := by rw [ha] at h1; injection h1
          rw [e2 w1 (by rw [(moveCoins_inv h3).contracts]; exact hc), map_ok] at h4
          obtain ⟨rs, h4, e⟩ := h4
          injection e with e e'
          subst e; subst e'
          obtain ⟨ms, h5, h6⟩ := heard_act.mpr ⟨rs, h4, rfl⟩
          refine ⟨a, h1, u, h2, w1, h3, w1, rs.map RawFrame.heard, ?_, rfl, by rw [List.map_append, rawReply_heard]⟩
          rw [e1 w1 (by rw [(moveCoins_inv h3).contracts]; exact hc), map_ok]
          exact ⟨ms, h5, by rw [h6]⟩
      · refine go hf fun fs => ?_
        have hn : ∀ a w1, c.api.resolve t = .ok a → moveCoins w sender a l = .ok w1 → ∀ adm, w1.contracts a ≠ some ⟨adm, .other⟩ := by
          intro a w1 ha hm adm h
          rw [(moveCoins_inv hm).contracts] at h
          exact hf ⟨a, adm, ha, h⟩
        simp only [RawFrame.heard, RawSub.heard, RawMsg.heard, step, stepRaw, bind_eq_ok, pure_eq_ok, Prod.mk.injEq, Prod.exists, rawReply_eq]
        constructor
        · rintro ⟨a, h1, u, h2, w1, h3, w2, fs2, h4, rfl, rfl⟩
          obtain ⟨fs0, h5, rfl⟩ := (callRaw_iff (hn a w1 h1 h3)).mp h4
          exact ⟨_, ⟨a, h1, u, h2, w1, h3, _, fs0, h5, rfl, rfl⟩, by rw [List.map_append]⟩
        · rintro ⟨_, ⟨a, h1, u, h2, w1, h3, w2, fs2, h4, rfl, rfl⟩, rfl⟩
          exact ⟨a, h1, u, h2, w1, h3, _, _, (callRaw_iff (hn a w1 h1 h3)).mpr ⟨fs2, h4, rfl⟩, rfl, by rw [List.map_append]⟩
    | inst ad code b l =>
      by_cases hf : RunsForeign c w (RawFrame.msg sender ⟨.inst ad code b l, id⟩).heard
      · have hk : c.codes code = some .other := hf
        have hr : (classifyInst b).inRange = true := Wire.inst_fits.mp (classifyInst_wellFormed b).fits
        simp only [RawFrame.heard, RawSub.heard, RawMsg.heard, step, stepRaw, bind_eq_ok, pure_eq_ok, Prod.mk.injEq, Prod.exists]
        have e1 : ∀ a, callInstantiate c adv.heard n a sender .other (classifyInst b) =
            (adv.heard.act n a >>= fun ms => pure (.other, ms.map (Frame.msg a))) := by
          intro a
          unfold callInstantiate
          rw [hr]
          cases classifyInst b <;> rfl
        have e2 : ∀ a, instRaw c adv n a sender .other b = (adv.frames n a >>= fun fs => pure (.other, fs)) := fun a => rfl
        rw [hk]
        constructor
        · rintro ⟨k, h0, ad', h1, u, h2, w1, h3, s, fs2, h4, rfl, rfl⟩
          obtain rfl : k = .other := by cases h0; rfl
          rw [e1, map_ok] at h4
          obtain ⟨ms, h4, e⟩ := h4
          injection e with e e'
          subst e
          obtain ⟨rs, h5, h6⟩ := heard_act.mp ⟨ms, h4, e'⟩
          refine ⟨rs ++ rawReply sender id (some _), ⟨.other, h0, ad', h1, u, h2, w1, h3, .other, rs, ?_, rfl, rfl⟩,
            by rw [List.map_append, h6, rawReply_heard]⟩
          rw [e2, map_ok]
          exact ⟨rs, h5, rfl⟩
        · rintro ⟨_, ⟨k, h0, ad', h1, u, h2, w1, h3, s, fs2, h4, rfl, rfl⟩, rfl⟩
          obtain rfl : k = .other := by cases h0; rfl
          rw [e2, map_ok] at h4
          obtain ⟨rs, h4, e⟩ := h4
          injection e with e e'
          subst e; subst e'
          obtain ⟨ms, h5, h6⟩ := heard_act.mpr ⟨rs, h4, rfl⟩
          refine ⟨.other, h0, ad', h1, u, h2, w1, h3, .other, rs.map RawFrame.heard, ?_, rfl, by rw [List.map_append, rawReply_heard]⟩
          rw [e1, map_ok]
          exact ⟨ms, h5, by rw [h6]⟩
      · refine go hf fun fs => ?_
        simp only [RawFrame.heard, RawSub.heard, RawMsg.heard, step, stepRaw, bind_eq_ok, pure_eq_ok, Prod.mk.injEq, Prod.exists, rawReply_eq]
        have hn : ∀ k, okOr (c.codes code) .notFound = .ok k → k ≠ .other := by
          rintro k h rfl
          rw [okOr_eq_ok] at h
          exact hf h
        constructor
        · rintro ⟨k, h0, ad', h1, u, h2, w1, h3, s, fs2, h4, rfl, rfl⟩
          obtain ⟨fs0, h5, rfl⟩ := (instRaw_iff (hn k h0)).mp h4
          exact ⟨_, ⟨k, h0, ad', h1, u, h2, w1, h3, s, fs0, h5, rfl, rfl⟩, by rw [List.map_append]⟩
        · rintro ⟨_, ⟨k, h0, ad', h1, u, h2, w1, h3, s, fs2, h4, rfl, rfl⟩, rfl⟩
          exact ⟨k, h0, ad', h1, u, h2, w1, h3, s, _, (instRaw_iff (hn k h0)).mpr ⟨fs2, h4, rfl⟩, rfl, by rw [List.map_append]⟩

/-- All frames. -/
theorem run_iff {c : Chain} {adv : RawAdv} (n : Nat) : ∀ {w : World} (_ : Wire.Typed w) (fs : List RawFrame) {r : Nat × World},
    run c adv.heard n w (fs.map RawFrame.heard) = .ok r ↔ runRaw c adv n w fs = .ok r := by
  induction n with
  | zero =>
    intro w hw fs r
    cases fs with
    | nil => simp only [List.map_nil, run, runRaw]
    | cons f t => simp only [List.map_cons, run, runRaw]
  | succ n ih =>
    intro w hw fs r
    cases fs with
    | nil => simp only [List.map_nil, run, runRaw]
    | cons f t =>
      simp only [List.map_cons, run, runRaw, bind_eq_ok, Prod.exists]
      constructor
      · rintro ⟨w1, fs1, h1, h2⟩
        have ht := (hw.step (step_inv h1)).1
        obtain ⟨rs, h3, rfl⟩ := (step_iff hw f).mp h1
        rw [← List.map_append] at h2
        exact ⟨w1, rs, h3, (ih ht _).mp h2⟩
      · rintro ⟨w1, rs, h1, h2⟩
        have h3 := (step_iff (fs' := rs.map RawFrame.heard) hw f).mpr ⟨rs, h1, rfl⟩
        have ht := (hw.step (step_inv h3)).1
        exact ⟨w1, _, h3, by rw [← List.map_append]; exact (ih ht _).mpr h2⟩

end ByteChain
end Halo
