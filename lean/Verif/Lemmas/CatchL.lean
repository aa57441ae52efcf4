import Verif.Catch
import Verif.Lemmas.TraceL
/-! # Caught errors and several messages per transaction: helper lemmas -/

namespace Halo
namespace CatchL

/-- Runs of the machine of `Chain.lean`, for some third-party contracts. -/
inductive Runs (c : Chain) : World → List Frame → World → Prop where
  | nil (w : World) : Runs c w [] w
  | cons (adv : Adv) (n : Nat) (w w1 w' : World) (f : Frame) (fs gs : List Frame) (hs : step c adv n w f = .ok (w1, fs))
      (h : Runs c w1 (fs ++ gs) w') : Runs c w (f :: gs) w'

theorem Runs.append {c : Chain} {u v w : World} {fs gs : List Frame} (h : Runs c u fs v) (h' : Runs c v gs w) : Runs c u (fs ++ gs) w := by
  induction h with
  | nil => exact h'
  | cons adv n w w1 w' f fs gs hs _ ih =>
    refine .cons adv n _ w1 _ f fs _ hs ?_
    have := ih h'
    rwa [List.append_assoc] at this

theorem Runs.split {c : Chain} {u w : World} {fs gs : List Frame} (h : Runs c u (fs ++ gs) w) : ∃ v, Runs c u fs v ∧ Runs c v gs w := by
  generalize hl : fs ++ gs = l at h
  induction h generalizing fs with
  | nil w =>
    obtain ⟨rfl, rfl⟩ := List.append_eq_nil_iff.mp hl
    exact ⟨w, .nil _, .nil _⟩
  | cons adv n w w1 w' f fs' gs' hs h ih =>
    cases fs with
    | nil =>
      rw [List.nil_append] at hl
      subst hl
      exact ⟨w, .nil _, .cons adv n _ _ _ _ _ _ hs h⟩
    | cons g t =>
      rw [List.cons_append, List.cons.injEq] at hl
      obtain ⟨rfl, rfl⟩ := hl
      obtain ⟨v, h1, h2⟩ := ih (fs := fs' ++ t) (by rw [List.append_assoc])
      exact ⟨v, .cons adv n _ _ _ _ _ _ hs h1, h2⟩

/-- The same index, another oracle. -/
theorem step_congr {c : Chain} {a b : Adv} {n m : Nat} (hq : a.query n = b.query m) (ha : a.act n = b.act m) (w : World) (f : Frame) :
    step c a n w f = step c b m w f := by
  cases f with
  | msg s x =>
    obtain ⟨x, id⟩ := x
    cases x <;> simp only [step, callExecute, callInstantiate, hq, ha]
  | reply s i x => simp only [step, hq, ha]

theorem run_congr {c : Chain} {a b : Adv} {n : Nat} (h : ∀ m, m < n → a.query m = b.query m ∧ a.act m = b.act m) (w : World) (fs : List Frame) :
    run c a n w fs = run c b n w fs := by
  induction n generalizing w fs with
  | zero => cases fs <;> rfl
  | succ n ih =>
    cases fs with
    | nil => rfl
    | cons f fs =>
      simp only [run]
      rw [step_congr (h n (by omega)).1 (h n (by omega)).2]
      congr 1
      funext x
      exact ih (fun m hm => h m (by omega)) _ _

theorem Runs.run {c : Chain} {w w' : World} {fs : List Frame} (h : Runs c w fs w') : ∃ adv n, run c adv n w fs = .ok (0, w') := by
  induction h with
  | nil w =>
    refine ⟨⟨fun _ _ => .ok [], fun _ => ?_⟩, 0, rfl⟩
    exact ⟨fun _ _ => .error .notFound, fun _ _ => .error .notFound, fun _ => .error .notFound, fun _ _ => .error .notFound,
      fun _ _ => .error .notFound, fun _ _ => .error .notFound, fun _ _ => .error .notFound, fun _ => .error .notFound⟩
  | cons adv m w w1 w' f fs gs hs _ ih =>
    obtain ⟨b, n, hr⟩ := ih
    refine ⟨⟨fun k => if k = n then adv.act m else b.act k, fun k => if k = n then adv.query m else b.query k⟩, n + 1, ?_⟩
    simp only [Halo.run, bind_eq_ok, Prod.exists]
    refine ⟨w1, fs, ?_, ?_⟩
    · rw [step_congr (b := adv) (m := m) (if_pos rfl) (if_pos rfl)]; exact hs
    · rw [run_congr (b := b) (fun k hk => ⟨if_neg (by omega), if_neg (by omega)⟩)]; exact hr

theorem of_run {c : Chain} {adv : Adv} {n n' : Nat} {w w' : World} {fs : List Frame} (h : run c adv n w fs = .ok (n', w')) :
    Runs c w fs w' := by
  induction n generalizing w fs with
  | zero =>
    cases fs with
    | nil => cases h; exact .nil _
    | cons => cases h
  | succ n ih =>
    cases fs with
    | nil => cases h; exact .nil _
    | cons f fs =>
      simp only [Halo.run, bind_eq_ok, Prod.exists] at h
      obtain ⟨w1, fs1, h1, h2⟩ := h
      exact .cons adv n _ w1 _ f fs1 fs h1 (ih h2)

/-- What the simple machine runs instead: messages of third-party contracts may be replaced by other messages of theirs. -/
inductive Alt : List (Frame × Bool) → List Frame → Prop where
  | nil : Alt [] []
  | keep (f : Frame) (b : Bool) (fs : List (Frame × Bool)) (gs : List Frame) (h : Alt fs gs) : Alt ((f, b) :: fs) (f :: gs)
  | swap (s : Addr) (m : SubMsg) (ms : List SubMsg) (fs : List (Frame × Bool)) (gs : List Frame) (h : Alt fs gs) :
      Alt ((.msg s m, true) :: fs) (ms.map (Frame.msg s) ++ gs)

theorem Alt.split {a b : List (Frame × Bool)} {g : List Frame} (h : Alt (a ++ b) g) : ∃ g1 g2, g = g1 ++ g2 ∧ Alt a g1 ∧ Alt b g2 := by
  induction a generalizing g with
  | nil => exact ⟨[], g, rfl, .nil, h⟩
  | cons x t ih =>
    rw [List.cons_append] at h
    cases h with
    | keep f b' _ gs h =>
      obtain ⟨g1, g2, rfl, h1, h2⟩ := ih h
      exact ⟨f :: g1, g2, rfl, .keep f b' _ _ h1, h2⟩
    | swap s m ms _ gs h =>
      obtain ⟨g1, g2, rfl, h1, h2⟩ := ih h
      exact ⟨ms.map (Frame.msg s) ++ g1, g2, (List.append_assoc ..).symm, .swap s m ms _ _ h1, h2⟩

theorem Alt.plain {a : List (Frame × Bool)} {g : List Frame} (h : Alt a g) (hp : ∀ x ∈ a, x.2 = false) : g = a.map Prod.fst := by
  induction h with
  | nil => rfl
  | keep f b fs gs _ ih => rw [ih fun x hx => hp x (.tail _ hx)]; rfl
  | swap s m ms fs gs _ ih => cases hp _ (.head _)

theorem Alt.foreignMsgs {s : Addr} {ms : List SubMsg} {g : List Frame} (h : Alt (foreignMsgs s ms) g) : ∃ ms' : List SubMsg, g = ms'.map (Frame.msg s) := by
  induction ms generalizing g with
  | nil => cases h; exact ⟨[], rfl⟩
  | cons m t ih =>
    cases h with
    | keep f b _ gs h =>
      obtain ⟨ms', rfl⟩ := ih h
      exact ⟨m :: ms', rfl⟩
    | swap _ _ ms _ gs h =>
      obtain ⟨ms', rfl⟩ := ih h
      exact ⟨ms ++ ms', List.map_append.symm⟩

theorem tag_foreign {w : World} {s : Addr} (h : w.foreign s = true) (ms : List SubMsg) :
    (ms.map (Frame.msg s)).map (marked w) = foreignMsgs s ms := by
  rw [List.map_map]
  exact List.map_congr_left fun m _ => by simp [marked, h]

theorem tag_home {w : World} {s : Addr} (h : w.foreign s = false) (ms : List SubMsg) :
    ∀ x ∈ (ms.map (Frame.msg s)).map (marked w), x.2 = false := by
  intro x hx
  rw [List.map_map, List.mem_map] at hx
  obtain ⟨m, _, rfl⟩ := hx
  simp [marked, h]

theorem tag_reply (w : World) (s : Addr) (id : Option Nat) (x : Option Addr) :
    ∀ y ∈ (replyFrame s id x).map (marked w), y.2 = false := by
  intro y hy
  cases id with
  | none => cases hy
  | some i =>
    simp only [replyFrame, List.map_cons, List.map_nil, List.mem_singleton] at hy
    subst hy; rfl

theorem foreign_set {w : World} {a : Addr} {adm : Option Addr} {s : CState} : (w.setState a adm s).foreign a = (match s with | .other => true | _ => false) := by
  cases s <;> simp [World.foreign, World.setState, World.setContract]

/-- What a step leaves to do is either up to the third-party contract that acted, or fixed and not sent by one. -/
theorem step_shape {c : Chain} {a : Adv} {n : Nat} {w w1 : World} {f : Frame} {fs : List Frame} (h : step c a n w f = .ok (w1, fs)) :
    (∃ me tail, w1.foreign me = true ∧ (∀ y ∈ tail.map (marked w1), y.2 = false) ∧ (∃ ms : List SubMsg, fs = ms.map (Frame.msg me) ++ tail) ∧
      ∀ ms : List SubMsg, ∃ b, b.query = a.query ∧ step c b n w f = .ok (w1, ms.map (Frame.msg me) ++ tail)) ∨
    ∀ y ∈ fs.map (marked w1), y.2 = false := by
  have join : ∀ {me : Addr} {ms : List SubMsg} {tail : List Frame}, w1.foreign me = false → (∀ y ∈ tail.map (marked w1), y.2 = false) →
      ∀ y ∈ (ms.map (Frame.msg me) ++ tail).map (marked w1), y.2 = false := by
    intro me ms tail h1 h2 y hy
    rw [List.map_append, List.mem_append] at hy
    exact hy.elim (tag_home h1 ms y) (h2 y)
  cases f with
  | msg s x =>
    obtain ⟨x, id⟩ := x
    cases x with
    | bankSend dst coins =>
      simp only [step, bind_eq_ok, require_eq_ok, pure_eq_ok, Prod.mk.injEq] at h
      obtain ⟨_, _, _, _, _, _, rfl, rfl⟩ := h
      exact .inr (tag_reply _ _ _ _)
    | migrate target code =>
      simp only [step, bind_eq_ok, require_eq_ok, pure_eq_ok, Prod.mk.injEq] at h
      obtain ⟨_, _, _, _, _, _, _, _, rfl, rfl⟩ := h
      exact .inr (tag_reply _ _ _ _)
    | updateAdmin target new =>
      simp only [step, bind_eq_ok, require_eq_ok, pure_eq_ok, Prod.mk.injEq] at h
      obtain ⟨_, _, _, _, _, _, _, _, rfl, rfl⟩ := h
      exact .inr (tag_reply _ _ _ _)
    | exec target m funds =>
      simp only [step, bind_eq_ok, require_eq_ok, pure_eq_ok, Prod.mk.injEq, Prod.exists] at h
      obtain ⟨me, h1, _, h2, w2, h3, w3, fs3, h4, rfl, rfl⟩ := h
      have hx := h4
      unfold callExecute at hx
      simp only [bind_eq_ok, require_eq_ok] at hx
      obtain ⟨_, hr, hx⟩ := hx
      split at hx
      · cases hx
      · simp only [bind_eq_ok, pure_eq_ok, Prod.exists, Prod.mk.injEq] at hx
        obtain ⟨_, _, _, rfl, rfl⟩ := hx
        exact .inr (join (foreign_set) (tag_reply _ _ _ _))
      · simp only [bind_eq_ok, pure_eq_ok, Prod.exists, Prod.mk.injEq] at hx
        obtain ⟨_, _, _, rfl, rfl⟩ := hx
        exact .inr (join (foreign_set) (tag_reply _ _ _ _))
      · simp only [bind_eq_ok, pure_eq_ok, Prod.exists, Prod.mk.injEq] at hx
        obtain ⟨_, _, _, rfl, rfl⟩ := hx
        exact .inr (join (foreign_set) (tag_reply _ _ _ _))
      · simp only [bind_eq_ok, pure_eq_ok, Prod.exists, Prod.mk.injEq] at hx
        obtain ⟨_, _, _, rfl, rfl⟩ := hx
        exact .inr (join (foreign_set) (tag_reply _ _ _ _))
      · rename_i adm hc
        simp only [bind_eq_ok, pure_eq_ok, Prod.mk.injEq] at hx
        obtain ⟨ms, _, rfl, rfl⟩ := hx
        refine .inl ⟨me, _, by simp [World.foreign, hc], tag_reply _ _ _ _, ⟨ms, rfl⟩, fun ms' => ⟨⟨fun _ _ => .ok ms', a.query⟩, rfl, ?_⟩⟩
        simp only [step, bind_eq_ok, require_eq_ok, pure_eq_ok, Prod.mk.injEq, Prod.exists]
        refine ⟨me, h1, (), h2, w2, h3, w2, ms'.map (Frame.msg me), ?_, rfl, rfl⟩
        unfold callExecute
        simp only [bind_eq_ok, require_eq_ok]
        refine ⟨(), hr, ?_⟩
        rw [hc]; rfl
    | inst admin code m funds =>
      simp only [step, bind_eq_ok, require_eq_ok, pure_eq_ok, Prod.mk.injEq, Prod.exists] at h
      obtain ⟨k, h1, adm, h2, _, h3, w2, h4, st, fs3, h5, rfl, rfl⟩ := h
      have hx := h5
      unfold callInstantiate at hx
      simp only [bind_eq_ok, require_eq_ok] at hx
      obtain ⟨_, hr, hx⟩ := hx
      have fs0 : ∀ s0 : CState, (w2.setContract (c.addrOf w.next) ⟨adm, s0⟩).foreign (c.addrOf w.next) = (match s0 with | .other => true | _ => false) :=
        fun s0 => foreign_set (adm := adm)
      split at hx
      · simp only [bind_eq_ok, pure_eq_ok, Prod.mk.injEq] at hx
        obtain ⟨_, _, rfl, rfl⟩ := hx
        exact .inr (tag_reply _ _ _ _)
      · simp only [bind_eq_ok, pure_eq_ok, Prod.exists, Prod.mk.injEq] at hx
        obtain ⟨_, _, _, rfl, rfl⟩ := hx
        exact .inr (join (fs0 _) (tag_reply _ _ _ _))
      · simp only [bind_eq_ok, pure_eq_ok, Prod.exists, Prod.mk.injEq] at hx
        obtain ⟨_, _, _, rfl, rfl⟩ := hx
        exact .inr (join (fs0 _) (tag_reply _ _ _ _))
      · simp only [bind_eq_ok, pure_eq_ok, Prod.exists, Prod.mk.injEq] at hx
        obtain ⟨_, _, _, rfl, rfl⟩ := hx
        exact .inr (join (fs0 _) (tag_reply _ _ _ _))
      · simp only [bind_eq_ok, pure_eq_ok, Prod.mk.injEq] at hx
        obtain ⟨ms, _, rfl, rfl⟩ := hx
        refine .inl ⟨_, _, fs0 _, tag_reply _ _ _ _, ⟨ms, rfl⟩, fun ms' => ⟨⟨fun _ _ => .ok ms', a.query⟩, rfl, ?_⟩⟩
        simp only [step, bind_eq_ok, require_eq_ok, pure_eq_ok, Prod.mk.injEq, Prod.exists]
        refine ⟨_, h1, adm, h2, (), h3, w2, h4, .other, ms'.map (Frame.msg _), ?_, rfl, rfl⟩
        unfold callInstantiate
        simp only [bind_eq_ok, require_eq_ok]
        exact ⟨(), hr, ms', rfl, rfl⟩
      · cases hx
  | reply me i x =>
    unfold step at h
    dsimp only at h
    split at h
    · simp only [bind_eq_ok, pure_eq_ok, Prod.exists, Prod.mk.injEq] at h
      obtain ⟨_, _, _, rfl, rfl⟩ := h
      exact .inr (tag_home foreign_set _)
    · simp only [bind_eq_ok, pure_eq_ok, Prod.exists, Prod.mk.injEq] at h
      obtain ⟨_, _, _, rfl, rfl⟩ := h
      exact .inr (tag_home foreign_set _)
    · rename_i adm hc
      simp only [bind_eq_ok, pure_eq_ok, Prod.mk.injEq] at h
      obtain ⟨ms, _, rfl, rfl⟩ := h
      refine .inl ⟨me, [], by simp [World.foreign, hc], fun _ hy => absurd hy List.not_mem_nil, ⟨ms, (List.append_nil _).symm⟩,
        fun ms' => ⟨⟨fun _ _ => .ok ms', a.query⟩, rfl, ?_⟩⟩
      unfold step
      dsimp only
      rw [hc, List.append_nil]; rfl
    · cases h

theorem step_alt {c : Chain} {a : Adv} {n : Nat} {w w1 : World} {f : Frame} {fs g : List Frame} (h : step c a n w f = .ok (w1, fs))
    (hg : Alt (fs.map (marked w1)) g) : ∃ b, b.query = a.query ∧ step c b n w f = .ok (w1, g) := by
  rcases step_shape h with ⟨me, tail, hf, ht, ⟨ms, rfl⟩, hb⟩ | hp
  · rw [List.map_append, tag_foreign hf] at hg
    obtain ⟨g1, g2, rfl, h1, h2⟩ := hg.split
    obtain ⟨ms', rfl⟩ := h1.foreignMsgs
    have e : (tail.map (marked w1)).map Prod.fst = tail := by
      rw [List.map_map]
      conv_rhs => rw [← List.map_id tail]
      exact List.map_congr_left fun x _ => by cases x <;> rfl
    rw [h2.plain ht, e]
    exact hb ms'
  · have e : (fs.map (marked w1)).map Prod.fst = fs := by
      rw [List.map_map]
      conv_rhs => rw [← List.map_id fs]
      exact List.map_congr_left fun x _ => by cases x <;> rfl
    rw [hg.plain hp, e]
    exact ⟨a, rfl, h⟩

theorem dispatch_ok {c : Chain} {A : Agents} {p : List Nat} {n : Nat} {w : World} {f : Frame} {x : World × List Frame}
    (h : dispatch c A p n w f = .ok x) : step c (A.adv p) n w f = .ok x := by
  unfold dispatch at h
  split at h
  · cases h
  · exact h

/-- The machine that catches errors does nothing that the other machine cannot do. -/
theorem sim {c : Chain} {A : Agents} {n : Nat} {p : List Nat} {w w' : World} {fs : List (Frame × Bool)} (h : runC c A n p w fs = .ok w') :
    ∃ gs, Alt fs gs ∧ Runs c w gs w' := by
  induction n generalizing p w fs w' with
  | zero =>
    cases fs with
    | nil => cases h; exact ⟨[], .nil, .nil _⟩
    | cons x t => cases h
  | succ n ih =>
    cases fs with
    | nil => cases h; exact ⟨[], .nil, .nil _⟩
    | cons x fs =>
      obtain ⟨f, b⟩ := x
      have simple : ∀ {f : Frame}, (do
          let (w1, fs1) ← dispatch c A p n w f
          runC c A n p w1 (fs1.map (marked w1) ++ fs) : R World) = .ok w' → ∃ gs, Alt ((f, b) :: fs) gs ∧ Runs c w gs w' := by
        intro f h
        simp only [bind_eq_ok, Prod.exists] at h
        obtain ⟨w1, fs1, h1, h2⟩ := h
        obtain ⟨gs, ha, hr⟩ := ih h2
        obtain ⟨g1, g2, rfl, ha1, ha2⟩ := ha.split
        obtain ⟨a, -, hs⟩ := step_alt (dispatch_ok h1) ha1
        exact ⟨f :: g2, .keep f b _ _ ha2, .cons a n _ w1 _ _ _ _ hs hr⟩
      cases f with
      | reply me i x => exact simple h
      | msg s m =>
      rw [runC] at h
      split at h
      · rename_i hb
        obtain ⟨rfl, hc⟩ := Bool.and_eq_true_iff.mp hb
        split at h
        · rename_i w1 hr
          have h : ∃ ms, runC c A n p w1 (foreignMsgs s ms ++ fs) = .ok w' := by
            split at h
            · rw [bind_eq_ok] at h
              obtain ⟨ms, _, h⟩ := h
              exact ⟨ms, h⟩
            · exact ⟨[], h⟩
          obtain ⟨ms, h⟩ := h
          split at hr
          · cases hr
          · simp only [bind_eq_ok, Prod.exists] at hr
            obtain ⟨w2, fs2, h1, h2⟩ := hr
            obtain ⟨g1, ha1, hr1⟩ := ih h2
            obtain ⟨a, -, hs⟩ := step_alt (dispatch_ok h1) ha1
            obtain ⟨gs, ha, hr2⟩ := ih h
            obtain ⟨g2, g3, rfl, ha2, ha3⟩ := ha.split
            obtain ⟨ms', rfl⟩ := ha2.foreignMsgs
            refine ⟨(⟨m.msg, none⟩ :: ms').map (Frame.msg s) ++ g3, .swap s m _ _ _ ha3, ?_⟩
            exact .cons a n _ w2 _ _ _ _ hs (hr1.append hr2)
        · simp only [bind_eq_ok] at h
          obtain ⟨ms, hm, h⟩ := h
          obtain ⟨gs, ha, hr⟩ := ih h
          obtain ⟨g2, g3, rfl, ha2, ha3⟩ := ha.split
          obtain ⟨ms', rfl⟩ := ha2.foreignMsgs
          exact ⟨ms'.map (Frame.msg s) ++ g3, .swap s m ms' _ _ ha3, hr⟩
      · exact simple h

/-- The agents that catch nothing. -/
def never (adv : Adv) : Agents := ⟨fun _ => adv, fun _ _ => false, fun _ _ => false, fun _ _ => false⟩

theorem runC_never {c : Chain} {adv : Adv} {n : Nat} {p : List Nat} {w : World} {fs : List (Frame × Bool)} :
    runC c (never adv) n p w fs = (run c adv n w (fs.map Prod.fst)).map Prod.snd := by
  induction n generalizing p w fs with
  | zero => cases fs <;> rfl
  | succ n ih =>
    cases fs with
    | nil => rfl
    | cons x fs =>
      obtain ⟨f, b⟩ := x
      have e1 : runC c (never adv) (n + 1) p w ((f, b) :: fs) =
          (step c adv n w f >>= fun x => runC c (never adv) n p x.1 (x.2.map (marked x.1) ++ fs)) := by
        cases f with
        | reply => rfl
        | msg s m => rw [runC, show (b && (never adv).catches p n) = false from Bool.and_false _]; rfl
      rw [e1]
      have e : ∀ (w1 : World) (fs1 : List Frame), (fs1.map (marked w1)).map Prod.fst = fs1 := by
        intro w1 fs1
        rw [List.map_map]
        conv_rhs => rw [← List.map_id fs1]
        exact List.map_congr_left fun x _ => by cases x <;> rfl
      simp only [List.map_cons, run]
      show (step c adv n w f >>= fun x => runC c (never adv) n p x.1 (x.2.map (marked x.1) ++ fs)) =
        (step c adv n w f >>= fun x => run c adv n x.1 (x.2 ++ fs.map Prod.fst)).map Prod.snd
      cases step c adv n w f with
      | error e => rfl
      | ok x =>
        show runC c (never adv) n p x.1 (x.2.map (marked x.1) ++ fs) = (run c adv n x.1 (x.2 ++ fs.map Prod.fst)).map Prod.snd
        rw [ih, List.map_append, e]

end CatchL
end Halo
