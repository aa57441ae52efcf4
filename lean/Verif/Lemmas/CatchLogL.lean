import Verif.CatchLog
import Verif.Lemmas.CatchL
import Verif.Lemmas.LogL
/-! # Caught errors and several messages per transaction: what is recorded -/

namespace Halo
namespace CatchL

/-- What is announced depends on the third-party contracts only by what they answer. -/
theorem said_congr {c : Chain} {a b : Adv} {n m : Nat} (hq : a.query n = b.query m) (w : World) (f : Frame) :
    said c a n w f = said c b m w f := by
  cases f with
  | msg s x =>
    obtain ⟨x, id⟩ := x
    cases x <;> simp only [said, hq]
  | reply s i x => simp only [said, hq]

theorem recorded_congr {c : Chain} {a b : Adv} {n m : Nat} (hq : a.query n = b.query m) (w : World) (f : Frame) :
    recorded c a n w f = recorded c b m w f := by
  unfold recorded
  rw [said_congr hq]

theorem and_assoc (a b d : Record) : (a.and b).and d = a.and (b.and d) := by simp [Record.and, List.append_assoc]

theorem nil_and (a : Record) : Record.and ⟨[], []⟩ a = a := rfl

theorem and_nil (a : Record) : a.and ⟨[], []⟩ = a := by simp [Record.and]

/-- Runs of the machine of `Chain.lean`, for some third-party contracts, with their record. -/
inductive Does (c : Chain) : World → List Frame → World → Record → Prop where
  | nil (w : World) : Does c w [] w ⟨[], []⟩
  | cons (adv : Adv) (n : Nat) (w w1 w' : World) (f : Frame) (fs gs : List Frame) (r : Record) (hs : step c adv n w f = .ok (w1, fs))
      (h : Does c w1 (fs ++ gs) w' r) : Does c w (f :: gs) w' ((recorded c adv n w f).and r)

theorem Does.append {c : Chain} {u v w : World} {fs gs : List Frame} {r r' : Record} (h : Does c u fs v r) (h' : Does c v gs w r') :
    Does c u (fs ++ gs) w (r.and r') := by
  induction h with
  | nil => exact h'
  | cons adv n w w1 w' f fs gs r hs _ ih =>
    rw [and_assoc]
    refine .cons adv n _ w1 _ f fs _ _ hs ?_
    have := ih h'
    rwa [List.append_assoc] at this

theorem Does.split {c : Chain} {u w : World} {fs gs : List Frame} {r : Record} (h : Does c u (fs ++ gs) w r) :
    ∃ v r1 r2, r = r1.and r2 ∧ Does c u fs v r1 ∧ Does c v gs w r2 := by
  generalize hl : fs ++ gs = l at h
  induction h generalizing fs with
  | nil w =>
    obtain ⟨rfl, rfl⟩ := List.append_eq_nil_iff.mp hl
    exact ⟨w, _, _, rfl, .nil _, .nil _⟩
  | cons adv n w w1 w' f fs' gs' r hs h ih =>
    cases fs with
    | nil =>
      rw [List.nil_append] at hl
      subst hl
      exact ⟨w, ⟨[], []⟩, _, (nil_and _).symm, .nil _, .cons adv n _ _ _ _ _ _ _ hs h⟩
    | cons g t =>
      rw [List.cons_append, List.cons.injEq] at hl
      obtain ⟨rfl, rfl⟩ := hl
      obtain ⟨v, r1, r2, rfl, h1, h2⟩ := ih (fs := fs' ++ t) (by rw [List.append_assoc])
      exact ⟨v, _, r2, (and_assoc ..).symm, .cons adv n _ _ _ _ _ _ _ hs h1, h2⟩

theorem trace_congr {c : Chain} {a b : Adv} {n : Nat} (h : ∀ m, m < n → a.query m = b.query m ∧ a.act m = b.act m) (w : World) (fs : List Frame) :
    trace c a n w fs = trace c b n w fs ∧ log c a n w fs = log c b n w fs := by
  induction n generalizing w fs with
  | zero => cases fs <;> exact ⟨rfl, rfl⟩
  | succ n ih =>
    cases fs with
    | nil => exact ⟨rfl, rfl⟩
    | cons f fs =>
      simp only [trace, log]
      rw [step_congr (h n (by omega)).1 (h n (by omega)).2, said_congr (h n (by omega)).1]
      cases step c b n w f with
      | error e => exact ⟨rfl, rfl⟩
      | ok x =>
        obtain ⟨w1, fs1⟩ := x
        obtain ⟨h1, h2⟩ := ih (fun m hm => h m (by omega)) w1 (fs1 ++ fs)
        simp only [h1, h2, and_self]

theorem Does.run {c : Chain} {w w' : World} {fs : List Frame} {r : Record} (h : Does c w fs w' r) :
    ∃ adv n, run c adv n w fs = .ok (0, w') ∧ r = ⟨trace c adv n w fs, log c adv n w fs⟩ := by
  induction h with
  | nil w =>
    refine ⟨⟨fun _ _ => .ok [], fun _ => ?_⟩, 0, rfl, rfl⟩
    exact ⟨fun _ _ => .error .notFound, fun _ _ => .error .notFound, fun _ => .error .notFound, fun _ _ => .error .notFound,
      fun _ _ => .error .notFound, fun _ _ => .error .notFound, fun _ _ => .error .notFound, fun _ => .error .notFound⟩
  | cons adv m w w1 w' f fs gs r hs _ ih =>
    obtain ⟨b, n, hr, rfl⟩ := ih
    let d : Adv := ⟨fun k => if k = n then adv.act m else b.act k, fun k => if k = n then adv.query m else b.query k⟩
    have e : ∀ k, k < n → d.query k = b.query k ∧ d.act k = b.act k := fun k hk => ⟨if_neg (by omega), if_neg (by omega)⟩
    have q : d.query n = adv.query m := if_pos rfl
    have s : step c d n w f = .ok (w1, fs) := by
      rw [step_congr (b := adv) (m := m) q (if_pos rfl)]; exact hs
    refine ⟨d, n + 1, ?_, ?_⟩
    · simp only [Halo.run, bind_eq_ok, Prod.exists]
      refine ⟨w1, fs, s, ?_⟩
      rw [run_congr e]; exact hr
    · rw [trace_cons s, log_cons s, (trace_congr e _ _).1, (trace_congr e _ _).2, said_congr q]
      rfl

theorem does_of_run {c : Chain} {adv : Adv} {n n' : Nat} {w w' : World} {fs : List Frame} (h : run c adv n w fs = .ok (n', w')) :
    Does c w fs w' ⟨trace c adv n w fs, log c adv n w fs⟩ := by
  induction n generalizing w fs with
  | zero =>
    cases fs with
    | nil => cases h; exact .nil _
    | cons => cases h
  | succ n ih =>
    cases fs with
    | nil => cases h; rw [trace_nil, log_nil]; exact .nil _
    | cons f fs =>
      simp only [Halo.run, bind_eq_ok, Prod.exists] at h
      obtain ⟨w1, fs1, h1, h2⟩ := h
      rw [trace_cons h1, log_cons h1]
      exact .cons adv n _ w1 _ f fs1 fs _ h1 (ih h2)

/-- The machine that catches errors does and announces nothing that the other machine cannot. -/
theorem does {c : Chain} {A : Agents} {n : Nat} {p : List Nat} {w w' : World} {fs : List (Frame × Bool)} {r : Record}
    (h : recC c A n p w fs = .ok (w', r)) : ∃ gs, Alt fs gs ∧ Does c w gs w' r := by
  induction n generalizing p w fs w' r with
  | zero =>
    cases fs with
    | nil => cases h; exact ⟨[], .nil, .nil _⟩
    | cons x t => cases h
  | succ n ih =>
    cases fs with
    | nil => cases h; exact ⟨[], .nil, .nil _⟩
    | cons x fs =>
      obtain ⟨f, b⟩ := x
      have simple : ∀ {f : Frame}, (do
          let (w1, fs1) ← dispatch c A p n w f
          let (w2, r) ← recC c A n p w1 (fs1.map (marked w1) ++ fs)
          pure (w2, (recorded c (A.adv p) n w f).and r) : R (World × Record)) = .ok (w', r) →
          ∃ gs, Alt ((f, b) :: fs) gs ∧ Does c w gs w' r := by
        intro f h
        simp only [bind_eq_ok, Prod.exists, pure_eq_ok, Prod.mk.injEq] at h
        obtain ⟨w1, fs1, h1, _, r1, h2, rfl, rfl⟩ := h
        obtain ⟨gs, ha, hr⟩ := ih h2
        obtain ⟨g1, g2, rfl, ha1, ha2⟩ := ha.split
        obtain ⟨a, hq, hs⟩ := step_alt (dispatch_ok h1) ha1
        rw [← recorded_congr (a := a) (congrFun hq n)]
        exact ⟨f :: g2, .keep f b _ _ ha2, .cons a n _ w1 _ _ _ _ _ hs hr⟩
      cases f with
      | reply me i x => exact simple h
      | msg s m =>
      rw [recC] at h
      split at h
      · rename_i hb
        obtain ⟨rfl, hc⟩ := Bool.and_eq_true_iff.mp hb
        split at h
        · rename_i w1 r1 hr
          have hm : ∃ ms r2, recC c A n p w1 (foreignMsgs s ms ++ fs) = .ok (w', r2) ∧ r = r1.and r2 := by
            split at h
            · simp only [bind_eq_ok, Prod.exists, pure_eq_ok, Prod.mk.injEq] at h
              obtain ⟨ms, _, _, r2, h, rfl, rfl⟩ := h
              exact ⟨ms, r2, h, rfl⟩
            · simp only [bind_eq_ok, Prod.exists, pure_eq_ok, Prod.mk.injEq] at h
              obtain ⟨_, _, _, r2, h, rfl, rfl⟩ := h
              exact ⟨_, r2, h, rfl⟩
          obtain ⟨ms, r2, hm, rfl⟩ := hm
          split at hr
          · cases hr
          · simp only [bind_eq_ok, Prod.exists, pure_eq_ok, Prod.mk.injEq] at hr
            obtain ⟨w2, fs2, h1, _, r3, h2, rfl, rfl⟩ := hr
            obtain ⟨g1, ha1, hr1⟩ := ih h2
            obtain ⟨a, hq, hs⟩ := step_alt (dispatch_ok h1) ha1
            obtain ⟨gs, ha, hr2⟩ := ih hm
            obtain ⟨g2, g3, rfl, ha2, ha3⟩ := ha.split
            obtain ⟨ms', rfl⟩ := ha2.foreignMsgs
            refine ⟨(⟨m.msg, none⟩ :: ms').map (Frame.msg s) ++ g3, .swap s m _ _ _ ha3, ?_⟩
            rw [← recorded_congr (a := a) (congrFun hq n), and_assoc]
            exact .cons a n _ w2 _ _ _ _ _ hs (hr1.append hr2)
        · simp only [bind_eq_ok] at h
          obtain ⟨ms, hm, h⟩ := h
          obtain ⟨gs, ha, hr⟩ := ih h
          obtain ⟨g2, g3, rfl, ha2, ha3⟩ := ha.split
          obtain ⟨ms', rfl⟩ := ha2.foreignMsgs
          exact ⟨ms'.map (Frame.msg s) ++ g3, .swap s m ms' _ _ ha3, hr⟩
      · exact simple h

/-- The record leaves the machine as it is. -/
theorem recC_fst {c : Chain} {A : Agents} {n : Nat} {p : List Nat} {w : World} {fs : List (Frame × Bool)} :
    (recC c A n p w fs).map Prod.fst = runC c A n p w fs := by
  induction n generalizing p w fs with
  | zero => cases fs <;> rfl
  | succ n ih =>
    cases fs with
    | nil => rfl
    | cons x fs =>
      obtain ⟨f, b⟩ := x
      have simple : ∀ f : Frame, (do
          let (w1, fs1) ← dispatch c A p n w f
          let (w2, r) ← recC c A n p w1 (fs1.map (marked w1) ++ fs)
          pure (w2, (recorded c (A.adv p) n w f).and r) : R (World × Record)).map Prod.fst =
          (do let (w1, fs1) ← dispatch c A p n w f
              runC c A n p w1 (fs1.map (marked w1) ++ fs) : R World) := by
        intro f
        cases dispatch c A p n w f with
        | error e => rfl
        | ok x =>
          show Except.map Prod.fst (recC c A n p x.1 (x.2.map (marked x.1) ++ fs) >>= _) = runC c A n p x.1 (x.2.map (marked x.1) ++ fs)
          rw [← ih]
          cases recC c A n p x.1 (x.2.map (marked x.1) ++ fs) <;> rfl
      cases f with
      | reply me i x => exact simple _
      | msg s m =>
      rw [recC, runC]
      by_cases hb : (b && A.catches p n) = true
      · rw [if_pos hb, if_pos hb]
        have inner : (if A.fails p n then .error .outOfGas else do
            let (w1, fs1) ← dispatch c A p n w (.msg s ⟨m.msg, none⟩)
            runC c A n (n :: p) w1 (fs1.map (marked w1)) : R World) =
            (if A.fails p n then .error .outOfGas else do
              let (w1, fs1) ← dispatch c A p n w (.msg s ⟨m.msg, none⟩)
              let (w2, r) ← recC c A n (n :: p) w1 (fs1.map (marked w1))
              pure (w2, (recorded c (A.adv p) n w (.msg s ⟨m.msg, none⟩)).and r) : R (World × Record)).map Prod.fst := by
          split
          · rfl
          · cases dispatch c A p n w (.msg s ⟨m.msg, none⟩) with
            | error e => rfl
            | ok x =>
              show runC c A n (n :: p) x.1 (x.2.map (marked x.1)) = Except.map Prod.fst (recC c A n (n :: p) x.1 (x.2.map (marked x.1)) >>= _)
              rw [← ih]
              cases recC c A n (n :: p) x.1 (x.2.map (marked x.1)) <;> rfl
        rw [inner]
        cases (if A.fails p n then .error .outOfGas else do
              let (w1, fs1) ← dispatch c A p n w (.msg s ⟨m.msg, none⟩)
              let (w2, r) ← recC c A n (n :: p) w1 (fs1.map (marked w1))
              pure (w2, (recorded c (A.adv p) n w (.msg s ⟨m.msg, none⟩)).and r) : R (World × Record)) with
        | error e =>
          show Except.map Prod.fst (_ >>= _) = (_ >>= _)
          cases (A.adv (n :: p)).act n s with
          | error e => rfl
          | ok ms => exact ih
        | ok x =>
          obtain ⟨w1, r1⟩ := x
          have fin : ∀ ms, Except.map Prod.fst (recC c A n p w1 (foreignMsgs s ms ++ fs) >>= fun x => pure (x.1, r1.and x.2)) =
              runC c A n p w1 (foreignMsgs s ms ++ fs) := by
            intro ms
            rw [← ih]
            cases recC c A n p w1 (foreignMsgs s ms ++ fs) <;> rfl
          cases m.replyId.isSome with
          | true =>
            cases (A.adv (n :: p)).act n s with
            | error e => rfl
            | ok ms => exact fin ms
          | false => exact fin []
      · rw [if_neg hb, if_neg hb]
        exact simple _

/-- If nothing is caught, the record is the trace and the log. -/
theorem recC_never {c : Chain} {adv : Adv} {n n' : Nat} {p : List Nat} {w w' : World} {fs : List (Frame × Bool)}
    (h : run c adv n w (fs.map Prod.fst) = .ok (n', w')) :
    recC c (never adv) n p w fs = .ok (w', ⟨trace c adv n w (fs.map Prod.fst), log c adv n w (fs.map Prod.fst)⟩) := by
  induction n generalizing p w fs with
  | zero =>
    cases fs with
    | nil => cases h; rfl
    | cons => cases h
  | succ n ih =>
    cases fs with
    | nil => cases h; rfl
    | cons x fs =>
      obtain ⟨f, b⟩ := x
      have e1 : recC c (never adv) (n + 1) p w ((f, b) :: fs) =
          (step c adv n w f >>= fun x => recC c (never adv) n p x.1 (x.2.map (marked x.1) ++ fs) >>= fun y =>
            pure (y.1, (recorded c adv n w f).and y.2)) := by
        cases f with
        | reply => rfl
        | msg s m => rw [recC, show (b && (never adv).catches p n) = false from Bool.and_false _]; rfl
      have e : ∀ (w1 : World) (fs1 : List Frame), (fs1.map (marked w1)).map Prod.fst = fs1 := by
        intro w1 fs1
        rw [List.map_map]
        conv_rhs => rw [← List.map_id fs1]
        exact List.map_congr_left fun x _ => by cases x <;> rfl
      simp only [List.map_cons, run, bind_eq_ok, Prod.exists] at h
      obtain ⟨w1, fs1, h1, h2⟩ := h
      have h3 : run c adv n w1 ((fs1.map (marked w1) ++ fs).map Prod.fst) = .ok (n', w') := by
        rw [List.map_append, e]; exact h2
      rw [e1, h1]
      show (recC c (never adv) n p w1 (fs1.map (marked w1) ++ fs) >>= _) = _
      rw [ih h3, List.map_append, e, List.map_cons, trace_cons h1, log_cons h1]
      rfl

end CatchL
end Halo
