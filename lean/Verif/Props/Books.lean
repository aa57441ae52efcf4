import Verif.Props.Admin
import Verif.Props.Create
import Verif.Lemmas.TraceL
import Verif.Props.Pool
import Verif.Spec.Books
/-! # A factory's storage is what its calls say (C100) -/

namespace Halo
open Spec

/-- The decimals of a stored asset, if it is a native coin. -/
def nativeOnly : AssetInfoRaw → Nat → Option Nat
  | .native _, n => some n
  | .token _, _ => none

/-- A registry entry as the books have it. -/
def asListed (e : PairInfoRaw) : Listed :=
  ⟨e.assetInfos, (nativeOnly e.assetInfos.1 e.assetDecimals.1, nativeOnly e.assetInfos.2 e.assetDecimals.2), some e.contractAddr⟩

/-- The storage of a factory agrees with the books. -/
structure Factory.State.Agrees (s : Factory.State) (b : Books) : Prop where
  owner : b.owner = some s.config.owner
  pairCode : b.pairCode = s.config.pairCodeId
  tokenCode : b.tokenCode = s.config.tokenCodeId
  decimals : ∀ d, b.decimals d = s.allow.get d
  asked : b.asked = s.tmp.map Factory.Tmp.assetInfos
  askedDecimals : ∀ t, s.tmp = some t →
    b.askedDecimals = (nativeOnly t.assetInfos.1 t.assetDecimals.1, nativeOnly t.assetInfos.2 t.assetDecimals.2)
  listed : ∀ k, b.listed k = (AMap.get s.pairs k).map asListed

namespace BooksL

theorem listKey_eq (as : AssetInfoRaw × AssetInfoRaw) : listKey as = Factory.pairKey as := by
  have h : ∀ x, rawBytes x = AssetInfoRaw.asBytes x := by intro x; cases x <;> rfl
  simp only [listKey, Factory.pairKey, Factory.sort2, h]
  split <;> rfl

theorem rawAsset_eq {c : Chain} {x : AssetInfo} {r : AssetInfoRaw} (h : x.toRaw c.api = .ok r) : rawAsset c x = some r := by
  cases x with
  | native d => simp only [AssetInfo.toRaw, Except.ok.injEq] at h; subst h; rfl
  | token t =>
    simp only [AssetInfo.toRaw, bind_eq_ok, canonicalize_eq_ok, pure_eq_ok] at h
    obtain ⟨b, h1, rfl⟩ := h
    simp [rawAsset, h1]

theorem books_append (c : Chain) (a : Addr) (tr : List (World × Frame)) (e : World × Frame) :
    books c a (tr ++ [e]) = keep c a (books c a tr) e := by simp [books]

/-- A call of a factory that goes through. -/
theorem fac_call {c : Chain} {adv : Adv} {n : Nat} {w w' : World} {f : Frame} {fs : List Frame} (h : StepI c adv n w f w' fs)
    {sender : Addr} {target : Str} {m : ExecMsg} {funds : List Coin} {id : Option Nat}
    (hf : f = .msg sender ⟨.exec target m funds, id⟩) {a : Addr} (hres : c.api.resolve target = .ok a) {adm : Option Addr}
    {s : Factory.State} (ha : w.contracts a = some ⟨adm, .factory s⟩) :
    ∃ w1 s' r, moveCoins w sender a funds = .ok w1 ∧
      Factory.Eff c.api (querier c (adv.query n) w1) a s sender m s' r ∧ w'.contracts a = some ⟨adm, .factory s'⟩ := by
  cases h with
  | bank | inst | migrate | admin | replyPair | replyFactory | replyOther => cases hf
  | token _ _ _ _ _ me _ _ _ _ _ hme _ _ hc | pair _ _ _ _ _ me _ _ _ _ _ hme _ _ hc
  | router _ _ _ _ _ me _ _ _ _ _ hme _ _ hc | other _ _ _ _ _ me _ _ _ hme _ hc =>
    cases hf; rw [hres] at hme; cases hme; rw [ha] at hc; cases hc
  | factory _ _ _ _ _ me w1 _ _ s' r hme hm _ hc hx =>
    cases hf; rw [hres] at hme; cases hme; rw [ha] at hc; cases hc
    exact ⟨w1, s', r, hm, Factory.execute_inv hx, setContract_self _ _ _⟩

/-- A reply to a factory. -/
theorem fac_reply {c : Chain} {adv : Adv} {n : Nat} {w w' : World} {f : Frame} {fs : List Frame} (h : StepI c adv n w f w' fs)
    {a : Addr} {id : Nat} {created : Option Addr} (hf : f = .reply a id created) {adm : Option Addr}
    {s : Factory.State} (ha : w.contracts a = some ⟨adm, .factory s⟩) :
    ∃ s' r, Factory.reply c.api (querier c (adv.query n) w) s created = .ok (s', r) ∧
      w'.contracts a = some ⟨adm, .factory s'⟩ := by
  cases h with
  | bank | inst | migrate | admin | token | pair | factory | router | other => cases hf
  | replyPair _ _ _ _ _ _ _ hc | replyOther _ _ _ _ _ hc => cases hf; rw [ha] at hc; cases hc
  | replyFactory _ _ _ _ _ s' r hc hx =>
    cases hf; rw [ha] at hc; cases hc
    exact ⟨s', r, hx, setContract_self _ _ _⟩

theorem Agrees.call {c : Chain} (hc : c.Lawful) {q : Querier} {w1 : World} {k : Nat} {adm : Option Addr} {s s' : Factory.State}
    {b : Books} {sender : Addr} {m : ExecMsg} {r : Response} (hb : s.Agrees b)
    (ha : w1.contracts (c.addrOf k) = some ⟨adm, .factory s⟩)
    (h : Factory.Eff c.api (querier c q w1) (c.addrOf k) s sender m s' r) : s'.Agrees (b.called c m) := by
  cases h with
  | update o t p own hs hn hsm =>
    refine ⟨?_, by simp [Books.called, hb.pairCode], by simp [Books.called, hb.tokenCode], hb.decimals, hb.asked,
      hb.askedDecimals, hb.listed⟩
    cases o with
    | none => simp [Books.called, hb.owner, hn rfl]
    | some o => simp [Books.called, (hsm o rfl).2]
  | create as req d0 d1 r0 r1 hne h0 h1 hr0 hr1 hnew =>
    have hd : ∀ {x : AssetInfo} {r : AssetInfoRaw} {d : Nat}, x.toRaw c.api = .ok r →
        x.queryDecimals (querier c q w1) (c.addrOf k) = .ok d → b.decimalsOf x = nativeOnly r d := by
      intro x r d hr hx
      cases x with
      | native dn =>
        simp only [AssetInfo.toRaw, Except.ok.injEq] at hr
        subst hr
        simp only [Books.decimalsOf, nativeOnly, hb.decimals]
        exact ((nativeDecimals_eq_ok hc ha).mp hx).1
      | token t =>
        simp only [AssetInfo.toRaw, bind_eq_ok, canonicalize_eq_ok, pure_eq_ok] at hr
        obtain ⟨_, _, rfl⟩ := hr
        rfl
    refine ⟨hb.owner, hb.pairCode, hb.tokenCode, hb.decimals, ?_, ?_, hb.listed⟩
    · simp [Books.called, rawAsset_eq hr0, rawAsset_eq hr1]
    · rintro t ht
      cases ht
      simp only [Books.called, hd hr0 h0, hd hr1 h1]
  | addNative d dec bal hs hbal hpos =>
    refine ⟨hb.owner, hb.pairCode, hb.tokenCode, fun d' => ?_, hb.asked, hb.askedDecimals, hb.listed⟩
    simp only [Books.called]
    split
    · rename_i e; subst e; exact (AMap.get_set_self _ _ _).symm
    · rename_i e; rw [AMap.get_set_ne _ _ e]; exact hb.decimals d'
  | migrate => exact hb

theorem Agrees.reply {c : Chain} {q : Querier} {s s' : Factory.State} {b : Books} {p : Addr} {r : Response}
    (hb : s.Agrees b) (hok : Factory.RegOk (fun _ => True) s)
    (h : Factory.reply c.api q s (some p) = .ok (s', r)) : s'.Agrees (b.created c p) := by
  obtain ⟨tmp, p', info, lt, ca, h1, h2, h3, h4, h5, rfl, rfl⟩ := Factory.reply_inv h
  cases h2
  have ha := hb.asked
  rw [h1] at ha
  simp only [Books.created, ha, Option.map_some]
  refine ⟨hb.owner, hb.pairCode, hb.tokenCode, hb.decimals, by simp [h1], hb.askedDecimals, fun k => ?_⟩
  dsimp only
  rw [get_smapSet hok.sorted, listKey_eq, (hok.tmp _ h1).1]
  split
  · simp [asListed, hb.askedDecimals _ h1, h5]
  · exact hb.listed k

/-- Everything that is kept up from step to step. -/
structure Kept (c : Chain) (a : Addr) (w : World) (tr : List (World × Frame)) : Prop where
  at_ : ContractsAt c w
  ok : FactoriesOk (fun _ => True) w
  books : ∀ adm s, w.contracts a = some ⟨adm, .factory s⟩ → ∃ b, books c a tr = some b ∧ s.Agrees b

theorem Kept.step {c : Chain} (hc : c.Lawful) {a : Addr} {adv : Adv} {n : Nat} {w w' : World} {f : Frame} {fs : List Frame}
    {tr : List (World × Frame)} (hk : Kept c a w tr) (h : StepI c adv n w f w' fs) : Kept c a w' (tr ++ [(w, f)]) := by
  refine ⟨hk.at_.step h, hk.ok.step (fun _ _ _ _ _ _ _ => trivial) h, fun adm s ha => ?_⟩
  rw [books_append]
  cases hca : w.contracts a with
  | some k =>
    obtain ⟨adm0, k⟩ := k
    cases k with
    | factory s0 =>
      obtain ⟨b, hb, hag⟩ := hk.books adm0 s0 hca
      rw [hb]
      obtain ⟨j, _, hj⟩ := hk.at_ _ _ hca
      have same : (∀ sender target m funds id, f = .msg sender ⟨.exec target m funds, id⟩ → c.api.resolve target ≠ .ok a) →
          (∀ id created, f ≠ .reply a id created) → s = s0 := by
        intro h1 h2
        obtain ⟨k, _, h3, h4, _⟩ := facStep h hca
        rw [ha] at h3
        cases h3
        cases h4 with
        | same => rfl
        | exec sender target m funds id w1 s' r hf hme => exact absurd hme (h1 _ _ _ _ _ hf)
        | reply id created s' r hf => exact absurd hf (h2 _ _)
      cases f with
      | reply a' id created =>
        by_cases h1 : a' = a
        · subst h1
          obtain ⟨s', r, hx, h2⟩ := fac_reply h rfl hca
          rw [ha] at h2
          cases h2
          cases created with
          | none => obtain ⟨_, _, _, _, _, _, h3, _⟩ := Factory.reply_inv hx; cases h3
          | some p =>
            exact ⟨b.created c p, by simp [keep], Agrees.reply hag (hk.ok _ _ _ hca) hx⟩
        · rw [same (fun _ _ _ _ _ e => by cases e) (fun _ _ e => by cases e; exact h1 rfl)]
          refine ⟨b, ?_, hag⟩
          cases created <;> simp [keep, h1]
      | msg sender sm =>
        obtain ⟨m, id⟩ := sm
        cases m with
        | exec target m funds =>
          by_cases h1 : c.api.resolve target = .ok a
          · obtain ⟨w1, s', r, hm, hx, h2⟩ := fac_call h rfl h1 hca
            rw [ha] at h2
            cases h2
            refine ⟨b.called c m, by simp [keep, h1], ?_⟩
            subst hj
            exact Agrees.call hc hag (by rw [(moveCoins_inv hm).contracts]; exact hca) hx
          · rw [same (fun _ _ _ _ _ e => by cases e; exact h1) (fun _ _ e => by cases e)]
            exact ⟨b, by simp [keep, h1], hag⟩
        | inst admin code m funds =>
          rw [same (fun _ _ _ _ _ e => by cases e) (fun _ _ e => by cases e)]
          refine ⟨b, ?_, hag⟩
          have hne : c.addrOf w.next ≠ a := by
            rintro rfl
            cases h with
            | inst _ _ _ _ _ _ _ _ _ _ _ _ _ hnew => rw [hca] at hnew; cases hnew
          cases m <;> simp [keep, hne]
        | bankSend | migrate | updateAdmin =>
          rw [same (fun _ _ _ _ _ e => by cases e) (fun _ _ e => by cases e)]
          exact ⟨b, rfl, hag⟩
    | token s0 | pair s0 | router s0 | other =>
      exfalso
      cases storeStep h with
      | same h => rw [h, hca] at ha; cases ha
      | token me _ _ _ _ _ _ hc1 _ _ hc' ho | pair me _ _ _ hc1 hc' ho | factory me _ _ _ hc1 hc' ho
      | router me _ _ _ hc1 hc' ho =>
        by_cases h1 : a = me
        · subst h1; rw [hca] at hc1; cases hc1; try (rw [hc'] at ha; cases ha)
        · rw [ho a h1, hca] at ha; cases ha
      | inst me adv n adm2 k m sender s2 fs _ hnew hx hc' ho _ =>
        by_cases h1 : a = me
        · subst h1; rw [hca] at hnew; cases hnew
        · rw [ho a h1, hca] at ha; cases ha
      | migrate me admin k s2 hc1 hc' ho =>
        by_cases h1 : a = me
        · subst h1
          rw [hc'] at ha
          rw [hca] at hc1
          simp only [Option.some.injEq, Contract.mk.injEq] at ha hc1
          have h2 := ha.2
          rw [← hc1.2] at h2
          cases k <;> cases h2
        · rw [ho a h1, hca] at ha; cases ha
      | admin me _ _ s2 _ _ hc1 hc' ho =>
        by_cases h1 : a = me
        · subst h1
          rw [hc'] at ha
          rw [hca] at hc1
          simp only [Option.some.injEq, Contract.mk.injEq] at ha hc1
          have h2 := ha.2
          rw [← hc1.2] at h2
          cases h2
        · rw [ho a h1, hca] at ha; cases ha
  | none =>
    cases h with
    | inst sender admin codeId m funds id k adm2 w1 s2 fs hk2 hadm hnew hm hx =>
      by_cases h1 : a = c.addrOf w.next
      · subst h1
        rw [setContract_self] at ha
        cases ha
        cases k <;> cases m <;>
          simp only [callInstantiate, bind_eq_ok, pure_eq_ok, Prod.mk.injEq, reduceCtorEq, and_false, exists_false,
            false_and] at hx
        obtain ⟨_, _, ⟨s0, r0⟩, h2, h3, _⟩ := hx
        simp only [Factory.instantiate, bind_eq_ok, pure_eq_ok, canonicalize_eq_ok, Prod.mk.injEq] at h2
        obtain ⟨ow, how, rfl, _⟩ := h2
        cases h3
        refine ⟨_, if_pos ⟨rfl, hk2⟩, ?_⟩
        exact ⟨how, rfl, rfl, fun _ => rfl, rfl, fun _ h => (by cases h), fun _ => rfl⟩
      · rw [setContract_ne _ _ h1, congrFun (moveCoins_inv hm).contracts a] at ha
        exact absurd (hca.symm.trans ha) (by simp)
    | bank _ _ _ _ _ _ _ _ hmv | other _ _ _ _ _ _ _ _ _ _ hmv =>
      rw [congrFun (moveCoins_inv hmv).contracts a, hca] at ha; cases ha
    | replyOther => rw [hca] at ha; cases ha
    | token _ _ _ _ _ me _ _ _ _ _ _ hmv _ hc1 | pair _ _ _ _ _ me _ _ _ _ _ _ hmv _ hc1
    | factory _ _ _ _ _ me _ _ _ _ _ _ hmv _ hc1 | router _ _ _ _ _ me _ _ _ _ _ _ hmv _ hc1 =>
      have h1 : a ≠ me := by rintro rfl; rw [hca] at hc1; cases hc1
      have e := ((setContract_ne _ _ h1).trans (congrFun (moveCoins_inv hmv).contracts a)).symm.trans ha
      exact absurd (hca.symm.trans e) (by simp)
    | migrate _ _ _ _ _ me _ _ _ hc1 | admin _ _ _ _ _ me _ _ hc1 | replyPair me _ _ _ _ _ _ hc1
    | replyFactory me _ _ _ _ _ _ hc1 =>
      have h1 : a ≠ me := by rintro rfl; rw [hca] at hc1; cases hc1
      have e := (setContract_ne _ _ h1).symm.trans ha
      exact absurd (hca.symm.trans e) (by simp)

theorem Kept.run {c : Chain} (hc : c.Lawful) {a : Addr} {adv : Adv} : ∀ {n n' : Nat} {w w' : World} {fs : List Frame}
    {tr : List (World × Frame)}, Kept c a w tr → run c adv n w fs = .ok (n', w') → Kept c a w' (tr ++ trace c adv n w fs) := by
  intro n
  induction n with
  | zero =>
    intro n' w w' fs tr hk h
    cases fs with
    | nil => cases h; simpa [trace_nil] using hk
    | cons f fs => obtain ⟨m, _, _, h1, _⟩ := run_cons_inv h; cases h1
  | succ n ih =>
    intro n' w w' fs tr hk h
    cases fs with
    | nil => cases h; simpa [trace_nil] using hk
    | cons f fs =>
      obtain ⟨m, w1, fs1, h1, h2, h3⟩ := run_cons_inv h
      cases h1
      have := ih (hk.step hc (step_inv h2)) h3
      rwa [trace_cons h2, ← List.append_cons] at *

theorem Kept.hist {c : Chain} (hc : c.Lawful) {a : Addr} {g w : World} (hg : Genesis g) {tr : List (World × Frame)}
    (h : Hist c g tr w) : Kept c a w tr := by
  induction h with
  | refl =>
    have hr : Reachable c g := .genesis g hg
    exact ⟨hr.contractsAt, hr.factoriesOk (fun _ _ _ _ _ _ _ => trivial), fun _ _ ha => by rw [hg.2 a] at ha; cases ha⟩
  | tx tr adv gas v w' signer m h hu hx ih =>
    obtain ⟨n, hr⟩ := runTx_inv hx
    exact ih.run hc hr
  | block tr v b h ih => exact ⟨ih.at_, ih.ok, ih.books⟩
  | env tr v bank' h hb ih => exact ⟨ih.at_, ih.ok, ih.books⟩

/-- What was kept up before any frame of a run. -/
theorem kept_run_at {c : Chain} (hc : c.Lawful) {a : Addr} {adv : Adv} : ∀ {n n' : Nat} {w w' : World} {fs : List Frame}
    {tr pre post : List (World × Frame)} {e : World × Frame}, Kept c a w tr → run c adv n w fs = .ok (n', w') →
    trace c adv n w fs = pre ++ e :: post →
    Kept c a e.1 (tr ++ pre) ∧ ∃ m v' fs', StepI c adv m e.1 e.2 v' fs' := by
  intro n
  induction n with
  | zero => intro n' w w' fs tr pre post e hk h ht; cases fs <;> simp [trace] at ht
  | succ n ih =>
    intro n' w w' fs tr pre post e hk h ht
    cases fs with
    | nil => simp [trace] at ht
    | cons f fs =>
      obtain ⟨m, w1, fs1, h1, h2, h3⟩ := run_cons_inv h
      cases h1
      rw [trace_cons h2] at ht
      cases pre with
      | nil =>
        simp only [List.nil_append, List.cons.injEq] at ht
        obtain ⟨rfl, _⟩ := ht
        exact ⟨by simpa using hk, _, _, _, step_inv h2⟩
      | cons p pre =>
        simp only [List.cons_append, List.cons.injEq] at ht
        obtain ⟨rfl, ht⟩ := ht
        have := ih (hk.step hc (step_inv h2)) h3 ht
        rwa [← List.append_cons] at this

theorem kept_hist_at {c : Chain} (hc : c.Lawful) {a : Addr} {g w : World} (hg : Genesis g) {tr : List (World × Frame)}
    (h : Hist c g tr w) : ∀ {pre post : List (World × Frame)} {e : World × Frame}, tr = pre ++ e :: post →
    Kept c a e.1 pre ∧ ∃ adv m v' fs', StepI c adv m e.1 e.2 v' fs' := by
  induction h with
  | refl => intro pre post e h; simp at h
  | tx tr adv gas v w' signer m h hu hx ih =>
    intro pre post e ht
    obtain ⟨n, hr⟩ := runTx_inv hx
    rcases List.append_eq_append_iff.1 ht with ⟨l, h1, h2⟩ | ⟨l, h1, h2⟩
    · subst h1
      obtain ⟨h3, h4⟩ := kept_run_at hc (Kept.hist hc hg h) hr h2
      exact ⟨h3, adv, h4⟩
    · cases l with
      | nil =>
        simp only [List.nil_append, List.append_nil] at h1 h2
        subst h1
        have h2 : trace c adv gas v [.msg signer (plain m)] = [] ++ e :: post := by simpa using h2.symm
        obtain ⟨h3, h4⟩ := kept_run_at hc (Kept.hist hc hg h) hr h2
        exact ⟨by simpa using h3, adv, h4⟩
      | cons x l =>
        simp only [List.cons_append, List.cons.injEq] at h2
        obtain ⟨rfl, h2⟩ := h2
        exact ih h1
  | block tr v b h ih => exact ih
  | env tr v bank' h hb ih => exact ih

/-- The books, message by message. -/
theorem keep_eq {c : Chain} {a : Addr} {o : Option Books} {b : Books} {e : World × Frame} (h : keep c a o e = some b) :
    (∃ s t m fu id b0, e.2 = .msg s ⟨.exec t m fu, id⟩ ∧ c.api.resolve t = .ok a ∧ o = some b0 ∧ b = b0.called c m) ∨
    ((∀ d, b.decimals d = none) ∧ b.asked = none ∧ ∀ k, b.listed k = none) ∨
    (∃ id p b0, e.2 = .reply a id (some p) ∧ o = some b0 ∧ b = b0.created c p) ∨
    (o = some b ∧ ∀ s t m fu id, e.2 = .msg s ⟨.exec t m fu, id⟩ → c.api.resolve t ≠ .ok a) := by
  obtain ⟨w, f⟩ := e
  cases f with
  | reply a' id created =>
    cases created with
    | none => exact .inr (.inr (.inr ⟨h, fun _ _ _ _ _ he => by cases he⟩))
    | some p =>
      simp only [keep] at h
      split at h
      · rename_i e
        subst e
        cases o with
        | none => cases h
        | some b0 => cases h; exact .inr (.inr (.inl ⟨id, p, b0, rfl, rfl, rfl⟩))
      · exact .inr (.inr (.inr ⟨h, fun _ _ _ _ _ he => by cases he⟩))
  | msg s sm =>
    obtain ⟨m, id⟩ := sm
    cases m with
    | exec t m fu =>
      simp only [keep] at h
      split at h
      · rename_i e
        cases o with
        | none => cases h
        | some b0 => cases h; exact .inl ⟨s, t, m, fu, id, b0, rfl, e, rfl, rfl⟩
      · rename_i e
        exact .inr (.inr (.inr ⟨h, fun _ _ _ _ _ he => by cases he; exact e⟩))
    | inst ad code m fu =>
      cases m with
      | factory pc tc =>
        simp only [keep] at h
        split at h
        · cases h; exact .inr (.inl ⟨fun _ => rfl, rfl, fun _ => rfl⟩)
        · exact .inr (.inr (.inr ⟨h, fun _ _ _ _ _ he => by cases he⟩))
      | _ => exact .inr (.inr (.inr ⟨h, fun _ _ _ _ _ he => by cases he⟩))
    | _ => exact .inr (.inr (.inr ⟨h, fun _ _ _ _ _ he => by cases he⟩))

/-- A pair was asked for by a frame after `pre`. -/
def Asked (c : Chain) (a : Addr) (tr : List (World × Frame)) (as : AssetInfoRaw × AssetInfoRaw) (ds : Option Nat × Option Nat) :
    Prop :=
  ∃ pre v sender target x y req funds id post b, tr = pre ++ (v, .msg sender ⟨.exec target (.createPair (x, y) req) funds, id⟩) :: post ∧
    c.api.resolve target = .ok a ∧ books c a pre = some b ∧ rawAsset c x = some as.1 ∧ rawAsset c y = some as.2 ∧
    ds = (b.decimalsOf x, b.decimalsOf y)

theorem Asked.more {c : Chain} {a : Addr} {tr : List (World × Frame)} {as : AssetInfoRaw × AssetInfoRaw}
    {ds : Option Nat × Option Nat} (h : Asked c a tr as ds) (e : World × Frame) : Asked c a (tr ++ [e]) as ds := by
  obtain ⟨pre, v, s, t, x, y, req, fu, id, post, b, rfl, h⟩ := h
  exact ⟨pre, v, s, t, x, y, req, fu, id, post ++ [e], b, by simp, h⟩

theorem origin {c : Chain} {a : Addr} (tr : List (World × Frame)) : ∀ b, books c a tr = some b →
    (∀ as, b.asked = some as → Asked c a tr as b.askedDecimals) ∧
    ∀ k l, b.listed k = some l → k = listKey l.assets ∧ Asked c a tr l.assets l.decimals := by
  induction tr using List.reverseRecOn with
  | nil => intro b h; cases h
  | append_singleton tr e ih =>
    intro b h
    rw [books_append] at h
    have old : ∀ b0, books c a tr = some b0 → (∀ as, b0.asked = some as → Asked c a (tr ++ [e]) as b0.askedDecimals) ∧
        ∀ k l, b0.listed k = some l → k = listKey l.assets ∧ Asked c a (tr ++ [e]) l.assets l.decimals :=
      fun b0 hb => ⟨fun as h => ((ih b0 hb).1 as h).more e, fun k l h => ((ih b0 hb).2 k l h).imp id (Asked.more · e)⟩
    rcases keep_eq h with ⟨s, t, m, fu, id, b0, he, hres, hb, rfl⟩ | ⟨_, h2, h3⟩ | ⟨id, p, b0, he, hb, rfl⟩ | ⟨hb, hno⟩
    · obtain ⟨o1, o2⟩ := old b0 hb
      cases m with
      | createPair xy req =>
        refine ⟨fun as has => ?_, o2⟩
        simp only [Books.called, Option.bind_eq_some_iff, Option.map_eq_some_iff] at has
        obtain ⟨x, hx, y, hy, rfl⟩ := has
        obtain ⟨v, f⟩ := e
        dsimp only at he
        subst he
        exact ⟨tr, v, s, t, xy.1, xy.2, req, fu, id, [], b0, rfl, hres, hb, hx, hy, rfl⟩
      | _ => exact ⟨o1, o2⟩
    · exact ⟨fun as has => absurd (h2.symm.trans has) (by simp), fun k l hl => absurd ((h3 k).symm.trans hl) (by simp)⟩
    · obtain ⟨o1, o2⟩ := old b0 hb
      cases ha : b0.asked with
      | none => simp only [Books.created, ha]; exact ⟨by simp, o2⟩
      | some as =>
        simp only [Books.created, ha]
        refine ⟨fun as' h' => o1 as' (by rw [ha]; exact h'), fun k l hl => ?_⟩
        split at hl
        · rename_i hk
          cases hl
          exact ⟨hk, o1 as ha⟩
        · exact o2 k l hl
    · exact old b hb

/-- What is registered was registered by a frame, and not changed since. -/
theorem registered {c : Chain} {a : Addr} {d : Denom} {n : Nat} (tr : List (World × Frame)) : ∀ b, books c a tr = some b →
    b.decimals d = some n → ∃ pre v sender target funds id post,
      tr = pre ++ (v, .msg sender ⟨.exec target (.addNativeTokenDecimals d n) funds, id⟩) :: post ∧ c.api.resolve target = .ok a ∧
      ∀ e ∈ post, ∀ s t n' fu i, e.2 = .msg s ⟨.exec t (.addNativeTokenDecimals d n') fu, i⟩ → c.api.resolve t ≠ .ok a := by
  induction tr using List.reverseRecOn with
  | nil => intro b h; cases h
  | append_singleton tr e ih =>
    intro b h hd
    rw [books_append] at h
    have old : ∀ b0, books c a tr = some b0 → b0.decimals d = some n →
        (∀ s t n' fu i, e.2 = .msg s ⟨.exec t (.addNativeTokenDecimals d n') fu, i⟩ → c.api.resolve t ≠ .ok a) →
        ∃ pre v sender target funds id post,
          tr ++ [e] = pre ++ (v, .msg sender ⟨.exec target (.addNativeTokenDecimals d n) funds, id⟩) :: post ∧
          c.api.resolve target = .ok a ∧
          ∀ e ∈ post, ∀ s t n' fu i, e.2 = .msg s ⟨.exec t (.addNativeTokenDecimals d n') fu, i⟩ → c.api.resolve t ≠ .ok a := by
      intro b0 hb hd he
      obtain ⟨pre, v, s, t, fu, id, post, rfl, h1, h2⟩ := ih b0 hb hd
      refine ⟨pre, v, s, t, fu, id, post ++ [e], by simp, h1, fun e' he' => ?_⟩
      rcases List.mem_append.1 he' with he' | he'
      · exact h2 e' he'
      · rw [List.mem_singleton] at he'; subst he'; exact he
    rcases keep_eq h with ⟨s, t, m, fu, id, b0, he, hres, hb, rfl⟩ | ⟨h2, _, _⟩ | ⟨id, p, b0, he, hb, rfl⟩ | ⟨hb, hno⟩
    · by_cases hm : ∃ n', m = .addNativeTokenDecimals d n'
      · obtain ⟨n', rfl⟩ := hm
        simp only [Books.called, if_true, Option.some.injEq] at hd
        subst hd
        obtain ⟨v, f⟩ := e
        dsimp only at he
        subst he
        exact ⟨tr, v, s, t, fu, id, [], rfl, hres, fun _ h => by cases h⟩
      · refine old b0 hb ?_ fun s' t' n' fu' i' he' => ?_
        · cases m with
          | addNativeTokenDecimals d' n' =>
            simp only [Books.called] at hd
            split at hd
            · rename_i e; subst e; exact absurd ⟨n', rfl⟩ hm
            · exact hd
          | _ => exact hd
        · rw [he] at he'
          cases he'
          exact absurd ⟨n', rfl⟩ hm
    · rw [h2] at hd; cases hd
    · refine old b0 hb ?_ fun s' t' n' fu' i' he' => by rw [he] at he'; cases he'
      simp only [Books.created] at hd
      split at hd <;> exact hd
    · exact old b hb hd fun s t n' fu i he => hno s t _ fu i he

end BooksL
open BooksL

/-- **C100.** In every history of the chain the storage of a factory is what can be read off the messages that were executed:
the owner, the code ids, the registered decimals, and for every key the listed assets, the decimals of those that are native
coins, and the address. -/
theorem C100_books {c : Chain} (hc : c.Lawful) {g w : World} (hg : Genesis g) {tr : List (World × Frame)} (h : Hist c g tr w)
    {a : Addr} {adm : Option Addr} {s : Factory.State} (ha : w.contracts a = some ⟨adm, .factory s⟩) :
    ∃ b, books c a tr = some b ∧ b.owner = some s.config.owner ∧ b.pairCode = s.config.pairCodeId ∧
      b.tokenCode = s.config.tokenCodeId ∧ (∀ d, b.decimals d = s.allow.get d) ∧
      ∀ k, b.listed k = (AMap.get s.pairs k).map asListed := by
  obtain ⟨b, hb, h⟩ := (Kept.hist hc hg h).books adm s ha
  exact ⟨b, hb, h.owner, h.pairCode, h.tokenCode, h.decimals, h.listed⟩

/-- **C100.** Every entry of the registry goes back to a `CreatePair` call of the factory, and the decimals it gives for a native
coin are those registered at that moment. -/
theorem C100_origin {c : Chain} (hc : c.Lawful) {g w : World} (hg : Genesis g) {tr : List (World × Frame)} (h : Hist c g tr w)
    {a : Addr} {adm : Option Addr} {s : Factory.State} (ha : w.contracts a = some ⟨adm, .factory s⟩) {k : Bytes} {e : PairInfoRaw}
    (he : (k, e) ∈ s.pairs) :
    ∃ pre v sender target x y req funds id post b,
      tr = pre ++ (v, .msg sender ⟨.exec target (.createPair (x, y) req) funds, id⟩) :: post ∧ c.api.resolve target = .ok a ∧
      rawAsset c x = some e.assetInfos.1 ∧ rawAsset c y = some e.assetInfos.2 ∧ books c a pre = some b ∧
      (∀ d, x = .native d → b.decimals d = some e.assetDecimals.1) ∧ (∀ d, y = .native d → b.decimals d = some e.assetDecimals.2) := by
  have hk := Kept.hist (a := a) hc hg h
  obtain ⟨b, hb, hag⟩ := hk.books adm s ha
  have hg := (hk.ok _ _ _ ha).sorted.get_of_mem he
  have hl := hag.listed k
  rw [hg] at hl
  obtain ⟨_, pre, v, sender, target, x, y, req, funds, id, post, b0, h1, h2, h3, h4, h5, h6⟩ := (origin tr b hb).2 k _ hl
  refine ⟨pre, v, sender, target, x, y, req, funds, id, post, b0, h1, h2, h4, h5, h3, ?_, ?_⟩
  · rintro d rfl
    have h4 := Option.some.inj h4
    have h6 := congrArg Prod.fst h6
    simp only [asListed] at h4 h6
    rw [← h4] at h6
    exact h6.symm
  · rintro d rfl
    have h5 := Option.some.inj h5
    have h6 := congrArg Prod.snd h6
    simp only [asListed] at h5 h6
    rw [← h5] at h6
    exact h6.symm

/-- **C100.** What is registered for a native coin is what its last registration said. -/
theorem C100_registered {c : Chain} (hc : c.Lawful) {g w : World} (hg : Genesis g) {tr : List (World × Frame)} (h : Hist c g tr w)
    {a : Addr} {adm : Option Addr} {s : Factory.State} (ha : w.contracts a = some ⟨adm, .factory s⟩) {d : Denom} {n : Nat}
    (hd : s.allow.get d = some n) : ∃ pre v sender target funds id post,
      tr = pre ++ (v, .msg sender ⟨.exec target (.addNativeTokenDecimals d n) funds, id⟩) :: post ∧ c.api.resolve target = .ok a ∧
      ∀ e ∈ post, ∀ s t n' fu i, e.2 = .msg s ⟨.exec t (.addNativeTokenDecimals d n') fu, i⟩ → c.api.resolve t ≠ .ok a := by
  obtain ⟨b, hb, hag⟩ := (Kept.hist (a := a) hc hg h).books adm s ha
  exact registered tr b hb ((hag.decimals d).trans hd)

/-- **C100.** And whoever told the factory to change its settings, to register decimals or to migrate a pair was the owner
according to the books at that moment. -/
theorem C100_owner {c : Chain} (hc : c.Lawful) {g w : World} (hg : Genesis g) {tr : List (World × Frame)} (h : Hist c g tr w)
    {a : Addr} {pre post : List (World × Frame)} {v : World} {sender : Addr} {target : Str} {m : ExecMsg} {funds : List Coin}
    {id : Option Nat} (ht : tr = pre ++ (v, .msg sender ⟨.exec target m funds, id⟩) :: post) (hres : c.api.resolve target = .ok a)
    (hm : (∃ o t p, m = .updateConfig o t p) ∨ (∃ d n, m = .addNativeTokenDecimals d n) ∨ ∃ k i, m = .migratePair k i)
    {adm : Option Addr} {s : Factory.State} (ha : v.contracts a = some ⟨adm, .factory s⟩) :
    ∃ b o, books c a pre = some b ∧ b.owner = some o ∧ c.api.canon sender = some o := by
  obtain ⟨hk, adv, n, v', fs', hst⟩ := kept_hist_at (a := a) hc hg h ht
  obtain ⟨b, hb, hag⟩ := hk.books adm s ha
  obtain ⟨w1, s', r, _, hx, _⟩ := fac_call hst rfl hres ha
  refine ⟨b, _, hb, hag.owner, ?_⟩
  cases hx with
  | update _ _ _ _ hs => exact hs
  | addNative _ _ _ hs => exact hs
  | migrate _ _ hs => exact hs
  | create => rcases hm with ⟨_, _, _, h⟩ | ⟨_, _, h⟩ | ⟨_, _, h⟩ <;> cases h

/-- A registry entry with a native coin goes back to a registration of its decimals by the owner, which came before the call that
created the pair. -/
def RegisteredFor (c : Chain) (a : Addr) (tr : List (World × Frame)) (d : Denom) (n : Nat) : Prop :=
  ∃ pre v sender target funds id mid v' sender' target' x y req funds' id' post,
    tr = pre ++ (v, .msg sender ⟨.exec target (.addNativeTokenDecimals d n) funds, id⟩) :: mid ++
      (v', .msg sender' ⟨.exec target' (.createPair (x, y) req) funds', id'⟩) :: post ∧
    c.api.resolve target = .ok a ∧ c.api.resolve target' = .ok a ∧ (x = .native d ∨ y = .native d) ∧
    (∀ e ∈ mid, ∀ s t n' fu i, e.2 = .msg s ⟨.exec t (.addNativeTokenDecimals d n') fu, i⟩ → c.api.resolve t ≠ .ok a)

/-- **C45**, over whole histories: a registered pair with a native coin was created after the decimals of that coin had been
registered, and has the decimals that were registered last before its creation. -/
theorem C45_history {c : Chain} (hc : c.Lawful) {g w : World} (hg : Genesis g) {tr : List (World × Frame)} (h : Hist c g tr w)
    {a : Addr} {adm : Option Addr} {s : Factory.State} (ha : w.contracts a = some ⟨adm, .factory s⟩) {k : Bytes} {e : PairInfoRaw}
    (he : (k, e) ∈ s.pairs) (d : Denom) :
    (e.assetInfos.1 = .native d → RegisteredFor c a tr d e.assetDecimals.1) ∧
    (e.assetInfos.2 = .native d → RegisteredFor c a tr d e.assetDecimals.2) := by
  obtain ⟨pre, v, sender, target, x, y, req, funds, id, post, b, h1, h2, h3, h4, h5, h6, h7⟩ := C100_origin hc hg h ha he
  have raw : ∀ x : AssetInfo, rawAsset c x = some (.native d) → x = .native d := by
    intro x hx
    cases x with
    | native d' => simpa [rawAsset] using hx
    | token t => simp [rawAsset] at hx
  constructor
  · intro hn
    rw [hn] at h3
    have hx := raw x h3
    obtain ⟨p, v0, s0, t0, f0, i0, q, h8, h9, h10⟩ := registered pre b h5 (h6 d hx)
    exact ⟨p, v0, s0, t0, f0, i0, q, v, sender, target, x, y, req, funds, id, post, by rw [h1, h8], h9, h2, .inl hx, h10⟩
  · intro hn
    rw [hn] at h4
    have hx := raw y h4
    obtain ⟨p, v0, s0, t0, f0, i0, q, h8, h9, h10⟩ := registered pre b h5 (h7 d hx)
    exact ⟨p, v0, s0, t0, f0, i0, q, v, sender, target, x, y, req, funds, id, post, by rw [h1, h8], h9, h2, .inr hx, h10⟩

namespace Demo

/-- The demo deployment, then a pair with the coin "u", whose decimals were registered before. -/
def bookMsgs : List CosmosMsg := setup ++ nativeSetup
def bookWorld : World := worldOf (runs bookMsgs genesis)
theorem book_run : runs bookMsgs genesis = .ok bookWorld := worldOf_eq (by decide +kernel)
def bookTrace : List (World × Frame) := traces bookMsgs genesis
theorem book_hist : Hist chain genesis bookTrace bookWorld := hist_runs book_run

/-- What the books say after these messages, computed from the frames alone: the owner, the decimals of "u", and the last pair. -/
example : ((books chain fac bookTrace).map fun b => (b.owner, b.pairCode, b.tokenCode, b.decimals [117], b.decimals [118])) =
    some (some user, 2, 1, some 6, none) := by decide +kernel
example : ((books chain fac bookTrace).bind fun b => (b.listed (listKey (.native [117], .token tA))).map fun l => (l.assets, l.decimals)) =
    some ((.native [117], .token tA), (some 6, none)) := by decide +kernel

/-- So this is what the factory has stored (C100), and the decimals were registered before the pair was created (C45). -/
example : ∃ adm s, bookWorld.contracts fac = some ⟨adm, .factory s⟩ ∧ s.config.owner = user ∧ s.allow.get [117] = some 6 ∧
    RegisteredFor chain fac bookTrace [117] 6 := by
  have hg : Genesis genesis := ⟨rfl, fun _ => rfl⟩
  have h : ((facAt bookWorld fac).map fun p => decide (p.2.config.owner = user ∧ p.2.allow.get [117] = some 6 ∧
      ∃ e ∈ p.2.pairs, e.2.assetInfos.1 = .native [117] ∧ e.2.assetDecimals.1 = 6)) = some true := by decide +kernel
  simp only [facAt] at h
  split at h
  · rename_i adm s ha
    simp only [Option.map_some, Option.some.injEq, decide_eq_true_eq] at h
    obtain ⟨h1, h2, e, he, h3, h4⟩ := h
    exact ⟨adm, s, ha, h1, h2, h4 ▸ (C45_history lawful hg book_hist ha he [117]).1 h3⟩
  · cases h

end Demo

end Halo
