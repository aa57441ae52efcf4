import Verif.Lemmas.CreateL
/-! # Registry entries name contracts that the factory administers, whatever the code ids are (helper lemmas) -/

namespace Halo

/-- What a factory at `a` can still have to do: send a migration, instantiate something it administers, or hear back about
something it administers. -/
inductive Chore (a : Addr) (w : World) : Frame → Prop where
  | migrate (k : Str) (code : Nat) : Chore a w (.msg a (plain (.migrate k code)))
  | inst (code : Nat) (m : InstMsg) : Chore a w (.msg a ⟨.inst (some a) code m [], some 1⟩)
  | reply (p : Addr) (st : CState) (h : w.contracts p = some ⟨some a, st⟩) : Chore a w (.reply a 1 (some p))

/-- The registry of the factory at `a` during a transaction. -/
structure OwnI (c : Chain) (a : Addr) (w : World) (fs : List Frame) (s : Factory.State) : Prop where
  ok : Factory.RegOk (fun _ => True) s
  chores : ∀ f ∈ fs, f.actor = a → Chore a w f
  owned : ∀ k e, AMap.get s.pairs k = some e → ∃ p st, c.api.canon p = some e.contractAddr ∧ w.contracts p = some ⟨some a, st⟩
  one : ∀ k k' e e', AMap.get s.pairs k = some e → AMap.get s.pairs k' = some e' → e.contractAddr = e'.contractAddr → k = k'
  apart : ∀ p, .reply a 1 (some p) ∈ fs → ∀ k e, AMap.get s.pairs k = some e → c.api.canon p ≠ some e.contractAddr
  distinct : fs.Pairwise fun f g => ∀ p, f = .reply a 1 (some p) → g ≠ .reply a 1 (some p)

theorem canon_inj {c : Chain} (hl : c.Lawful) {w : World} (hw : ContractsAt c w) {p q : Addr} {k k' : Contract} {b : Bytes}
    (hp : w.contracts p = some k) (hq : w.contracts q = some k') (h1 : c.api.canon p = some b) (h2 : c.api.canon q = some b) :
    p = q := by
  obtain ⟨i, _, rfl⟩ := hw _ _ hp
  obtain ⟨j, _, rfl⟩ := hw _ _ hq
  exact Option.some.inj ((hl.human_canon h1).symm.trans (hl.human_canon h2))

/-- Frames of other actors change nothing. -/
theorem OwnI.idle {c : Chain} {a : Addr} {w w' : World} {f : Frame} {fs rest : List Frame} {s s' : Factory.State}
    (hp : OwnI c a w (f :: rest) s) (hk : ∀ p st, w.contracts p = some ⟨some a, st⟩ → ∃ st', w'.contracts p = some ⟨some a, st'⟩)
    (hs : s'.pairs = s.pairs) (hok : Factory.RegOk (fun _ => True) s') (hfs : ∀ g ∈ fs, g.actor = a → Chore a w' g)
    (hnr : ∀ p, .reply a 1 (some p) ∉ fs) : OwnI c a w' (fs ++ rest) s' := by
  refine ⟨hok, fun g hg hga => ?_, fun k e he => ?_, by rw [hs]; exact hp.one, fun p hpm => ?_, ?_⟩
  · rcases List.mem_append.mp hg with hg | hg
    · exact hfs g hg hga
    · cases hp.chores g (List.mem_cons_of_mem _ hg) hga with
      | migrate k code => exact .migrate k code
      | inst code m => exact .inst code m
      | reply p st h => obtain ⟨st', h'⟩ := hk p st h; exact .reply p st' h'
  · rw [hs] at he
    obtain ⟨p, st, h1, h2⟩ := hp.owned k e he
    obtain ⟨st', h'⟩ := hk p st h2
    exact ⟨p, st', h1, h'⟩
  · rw [hs]
    rcases List.mem_append.mp hpm with hpm | hpm
    · exact absurd hpm (hnr p)
    · exact hp.apart p (List.mem_cons_of_mem _ hpm)
  · refine List.pairwise_append.mpr ⟨?_, (List.pairwise_cons.mp hp.distinct).2, ?_⟩
    · exact List.pairwise_of_forall_mem_list (fun g hg _ _ p hgp => absurd (hgp ▸ hg) (hnr p))
    · intro g hg _ _ p hgp
      exact absurd (hgp ▸ hg) (hnr p)

theorem OwnI.step {c : Chain} (hl : c.Lawful) {adv : Adv} {n : Nat} {w w' : World} {f : Frame} {fs rest : List Frame}
    {a : Addr} {adm : Option Addr} {s : Factory.State} (hi : Sane c w (f :: rest))
    (ha : w.contracts a = some ⟨adm, .factory s⟩) (hp : OwnI c a w (f :: rest) s) (h : StepI c adv n w f w' fs) :
    (∃ adm' s', w'.contracts a = some ⟨adm', .factory s'⟩ ∧ OwnI c a w' (fs ++ rest) s') ∨
      ∃ adm', w'.contracts a = some ⟨adm', .other⟩ := by
  have hk : ∀ p st, w.contracts p = some ⟨some a, st⟩ → ∃ st', w'.contracts p = some ⟨some a, st'⟩ := by
    intro p st hps
    obtain ⟨adm', k', h1, h2⟩ := admin_step h hps
    rcases h2 with rfl | ⟨sender, target, new, id, rfl, _, e⟩
    · exact ⟨_, h1⟩
    · cases e
      cases hp.chores _ List.mem_cons_self rfl
  by_cases hfa : f.actor = a
  · cases hp.chores f List.mem_cons_self hfa with
    | migrate k code =>
      rcases new_frames h ha (fun _ => ⟨_, rfl⟩) with ⟨h1, h2⟩ | ⟨_, _, _, _, _, _, _, _, hfe, _⟩
      · rcases h2 with ⟨adm', h2⟩ | h2
        · refine .inl ⟨adm', s, h2, hp.idle hk rfl hp.ok (fun g hg hga => absurd hga (h1 g hg)) fun p hm => ?_⟩
          exact h1 _ hm rfl
        · exact .inr h2
      · cases hfe
    | inst code m =>
      cases h with
      | inst sender admin codeId m funds id kk adm2 w1 s1 fs1 hkk hadm hnone hmv hx =>
        left
        have hap : a ≠ c.addrOf w.next := by rintro rfl; rw [ha] at hnone; cases hnone
        have e := (setContract_ne w1 ⟨adm2, s1⟩ hap).trans (congrFun (moveCoins_inv hmv).contracts a)
        obtain ⟨ka, hka, hak⟩ := hi.at_addr _ _ ha
        have hadm' : adm2 = some a := by
          simp only [resolveAdmin, bind_eq_ok, pure_eq_ok] at hadm
          obtain ⟨a2, hadm, rfl⟩ := hadm
          rw [hak, hl.resolve_addr, ← hak] at hadm
          cases hadm
          rfl
        subst hadm'
        have hfs1 : ∀ g ∈ fs1, g.actor ≠ a := by
          intro g hg hga
          obtain ⟨m, rfl⟩ := callInstantiate_frames hx _ hg
          exact hap hga.symm
        have hI := hp.idle (fs := fs1) (s' := s) hk rfl hp.ok (fun g hg hga => absurd hga (hfs1 g hg))
          (fun p hm => hfs1 _ hm rfl)
        refine ⟨adm, s, e.trans ha, hI.ok, ?_, hI.owned, hI.one, ?_, ?_⟩
        · intro g hg hga
          rw [List.append_assoc] at hg
          rcases List.mem_append.mp hg with hg | hg
          · exact hI.chores g (List.mem_append_left _ hg) hga
          · rcases List.mem_append.mp hg with hg | hg
            · obtain ⟨i, h1, rfl⟩ := mem_replyFrame hg
              cases h1
              exact .reply _ s1 (setContract_self _ _ _)
            · exact hI.chores g (List.mem_append_right _ hg) hga
        · intro p hpm k e' he hcn
          rw [List.append_assoc] at hpm
          rcases List.mem_append.mp hpm with hg | hg
          · exact hI.apart p (List.mem_append_left _ hg) k e' he hcn
          · rcases List.mem_append.mp hg with hg | hg
            · obtain ⟨i, _, h2⟩ := mem_replyFrame hg
              cases h2
              obtain ⟨q, st, h3, h4⟩ := hp.owned k e' he
              obtain ⟨j, _, rfl⟩ := hi.at_addr _ _ h4
              have := Option.some.inj ((hl.human_canon hcn).symm.trans (hl.human_canon h3))
              rw [← this, hnone] at h4
              cases h4
            · exact hI.apart p (List.mem_append_right _ hg) k e' he hcn
        · rw [List.append_assoc]
          have hd := List.pairwise_append.mp hI.distinct
          refine List.pairwise_append.mpr ⟨hd.1, List.pairwise_append.mpr ⟨List.pairwise_singleton _ _, hd.2.1, ?_⟩, ?_⟩
          · intro g hg g' hg' p hgp hgp'
            subst hgp hgp'
            obtain ⟨i, _, h2⟩ := mem_replyFrame hg
            cases h2
            cases hp.chores _ (List.mem_cons_of_mem _ hg') rfl with
            | reply _ st h3 => rw [hnone] at h3; cases h3
          · intro g hg _ _ p hgp
            subst hgp
            exact absurd rfl (hfs1 _ hg)
    | reply p st hps =>
      cases h with
      | replyPair me id created admin s1 s2 r hc hx => rw [ha] at hc; cases hc
      | replyOther me id created admin ms hc => rw [ha] at hc; cases hc
      | replyFactory me id created admin s1 s2 r hc hx =>
        rw [ha] at hc
        cases hc
        have hok := hp.ok.reply hx
        obtain ⟨t, p2, info, lt2, ca, ht, hp2, hq, hlt2, hca, rfl, rfl⟩ := Factory.reply_inv hx
        cases hp2
        have hI := hp.idle (fs := []) (s' := s) hk rfl hp.ok (fun g hg => by cases hg) (fun p hm => by cases hm)
        simp only [List.nil_append] at hI
        obtain ⟨st', hps'⟩ := hk p st hps
        have hap := hp.apart p List.mem_cons_self
        have hd := (List.pairwise_cons.mp hp.distinct).1
        refine .inl ⟨_, _, setContract_self _ _ _, hok, ?_, ?_, ?_, ?_, ?_⟩
        · exact hI.chores
        · intro k e he
          simp only [get_smapSet hp.ok.sorted] at he
          split at he
          · cases he; exact ⟨p, st', hca, hps'⟩
          · exact hI.owned k e he
        · intro k k' e e' he he' hee
          simp only [get_smapSet hp.ok.sorted] at he he'
          split at he <;> split at he'
          · rename_i h1 h2; rw [h1, h2]
          · cases he; exact absurd (hca.trans (congrArg some hee)) (hap _ _ he')
          · cases he'; exact absurd (hca.trans (congrArg some hee.symm)) (hap _ _ he)
          · exact hp.one _ _ _ _ he he' hee
        · intro p' hpm k e he
          simp only [get_smapSet hp.ok.sorted] at he
          split at he
          · cases he
            intro hc'
            cases hp.chores _ (List.mem_cons_of_mem _ hpm) rfl with
            | reply _ st2 h3 => exact hd _ hpm p rfl (by rw [canon_inj hl hi.at_addr h3 hps hc' hca])
          · exact hI.apart p' hpm k e he
        · exact hI.distinct
  · rcases new_frames h ha (fun e => absurd e hfa) with
      ⟨h1, h2⟩ | ⟨sender, target, m, funds, id, q, s2, r, hfe, hme, hx, ha2, hfs, hrep, _⟩
    · rcases h2 with ⟨adm', h2⟩ | h2
      · refine .inl ⟨adm', s, h2, hp.idle hk rfl hp.ok (fun g hg hga => absurd hga (h1 g hg)) fun p hm => ?_⟩
        exact h1 _ hm rfl
      · exact .inr h2
    · have hok := hp.ok.eff (Q := fun _ => True) (fun _ _ _ _ _ _ _ => trivial) hx
      refine .inl ⟨adm, s2, ha2, hp.idle hk ?_ hok ?_ ?_⟩
      · cases hx <;> rfl
      · intro g hg hga
        subst hfs
        rcases List.mem_append.mp hg with hg | hg
        · cases hx with
          | update | addNative => simp [frames] at hg
          | migrate k code =>
            simp only [frames, List.map_cons, List.map_nil, List.mem_singleton] at hg
            subst hg
            exact .migrate _ _
          | create as req d0 d1 r0 r1 hne h0 h1 hr0 hr1 hnew =>
            simp only [frames, List.map_cons, List.map_nil, List.mem_singleton] at hg
            subst hg
            exact .inst _ _
        · exact absurd hga (hrep g hg)
      · intro p hm
        subst hfs
        rcases List.mem_append.mp hm with hg | hg
        · obtain ⟨m, _, e⟩ := mem_frames hg
          cases e
        · exact hrep _ hg rfl

/-- The invariant of an execution, for the factory at `a`. -/
def OwnP (c : Chain) (a : Addr) (w : World) (fs : List Frame) : Prop :=
  Sane c w fs ∧ ∀ adm s, w.contracts a = some ⟨adm, .factory s⟩ → OwnI c a w fs s

theorem OwnP.step {c : Chain} (hl : c.Lawful) {adv : Adv} {n : Nat} {w w' : World} {f : Frame} {fs rest : List Frame}
    {a : Addr} (hp : OwnP c a w (f :: rest)) (h : StepI c adv n w f w' fs) : OwnP c a w' (fs ++ rest) := by
  refine ⟨hp.1.step h, fun adm s' ha' => ?_⟩
  rcases fac_back h ha' with ⟨s, adm0, ha⟩ | ⟨hnone, rfl, hpairs, htmp, hact, _⟩
  · rcases (hp.2 adm0 s ha).step hl hp.1 ha h with ⟨adm1, s1, h1, h2⟩ | ⟨_, h1⟩
    · rw [ha'] at h1; cases h1; exact h2
    · rw [ha'] at h1; cases h1
  · have hna := hp.1.no_actor hnone
    have hno : ∀ g ∈ fs ++ rest, g.actor ≠ c.addrOf w.next := by
      intro g hg
      rcases List.mem_append.mp hg with hg | hg
      · rw [hact g hg]; exact hna f (by simp)
      · exact hna g (List.mem_cons_of_mem _ hg)
    refine ⟨⟨?_, ?_, ?_⟩, fun g hg hga => absurd hga (hno g hg), ?_, ?_, ?_, ?_⟩
    · rw [hpairs]; exact List.Pairwise.nil
    · rw [hpairs]; intro e he; cases he
    · rw [htmp]; intro e he; cases he
    · rw [hpairs]; intro k e he; cases he
    · rw [hpairs]; intro k k' e e' he; cases he
    · rw [hpairs]; intro p _ k e he; cases he
    · exact List.pairwise_of_forall_mem_list (fun g hg _ _ p hgp => absurd (by rw [hgp]; rfl) (hno g hg))

theorem Reachable.ownP {c : Chain} (hl : c.Lawful) {w : World} (h : Reachable c w) (a : Addr) : OwnP c a w [] := by
  refine reachable_stack (P := OwnP c a) ?_ ?_ (fun _ _ _ _ _ _ _ hi hs => hi.step hl hs) ?_ ?_ h
  · exact fun w hg => ⟨(Reachable.genesis w hg).sane, fun adm s ha => by rw [hg.2 a] at ha; cases ha⟩
  · refine fun w signer m hi hu => ⟨hi.1.start hu m, fun adm s ha => ?_⟩
    have R := hi.2 adm s ha
    refine ⟨R.ok, fun g hg hga => ?_, R.owned, R.one, fun p hpm => by simp at hpm, List.pairwise_singleton _ _⟩
    simp only [List.mem_singleton] at hg
    subst hg
    obtain ⟨k, _, hk⟩ := hi.1.at_addr _ _ ha
    exact absurd (hk.symm.trans hga.symm) (hu.1 k)
  · intro w b hi
    have hs := hi.1
    exact ⟨⟨hs.at_addr, hs.actors, (fun _ _ _ _ _ h => by cases h), hs.linked, hs.addr, hs.silent⟩, fun adm s ha =>
      ⟨(hi.2 adm s ha).ok, (fun _ h => by cases h), (hi.2 adm s ha).owned, (hi.2 adm s ha).one, (fun _ h => by cases h), .nil⟩⟩
  · intro w bank' _ hi
    have hs := hi.1
    exact ⟨⟨hs.at_addr, hs.actors, (fun _ _ _ _ _ h => by cases h), hs.linked, hs.addr, hs.silent⟩, fun adm s ha =>
      ⟨(hi.2 adm s ha).ok, (fun _ h => by cases h), (hi.2 adm s ha).owned, (hi.2 adm s ha).one, (fun _ h => by cases h), .nil⟩⟩

end Halo
