import Verif.Lemmas.OwnedL
import Verif.Props.Create
/-! # The registry names distinct contracts that the factory administers (C87)

Unlike C41 this holds whatever the factory's two code ids are: the code of a pair or an LP token may be foreign and may call
back into the factory while a pair is being created. -/

namespace Halo

/-- **C87.** In every reachable state each entry of a factory's registry names a contract that exists and whose admin is the factory,
so that nobody else can replace its code. -/
theorem C87_factory_administers {c : Chain} (hl : c.Lawful) {w : World} (hw : Reachable c w) {a : Addr} {adm : Option Addr}
    {s : Factory.State} (ha : w.contracts a = some ⟨adm, .factory s⟩) {k : Bytes} {e : PairInfoRaw} (he : (k, e) ∈ s.pairs) :
    ∃ p st, c.api.canon p = some e.contractAddr ∧ w.contracts p = some ⟨some a, st⟩ := by
  have R := (hw.ownP hl a).2 adm s ha
  exact R.owned k e (R.ok.sorted.get_of_mem he)

/-- **C87.** Two entries that name the same contract are the same entry. -/
theorem C87_distinct {c : Chain} (hl : c.Lawful) {w : World} (hw : Reachable c w) {a : Addr} {adm : Option Addr}
    {s : Factory.State} (ha : w.contracts a = some ⟨adm, .factory s⟩) {x y : Bytes × PairInfoRaw} (hx : x ∈ s.pairs)
    (hy : y ∈ s.pairs) (h : x.2.contractAddr = y.2.contractAddr) : x = y := by
  have R := (hw.ownP hl a).2 adm s ha
  have h1 := R.ok.sorted.get_of_mem hx
  have h2 := R.ok.sorted.get_of_mem hy
  obtain ⟨kx, ex⟩ := x
  obtain ⟨ky, ey⟩ := y
  have := R.one _ _ _ _ h1 h2 h
  simp only at this h1 h2
  subst this
  rw [h1] at h2
  cases h2
  rfl

/-- **C87.** Two factories never name the same contract: a contract belongs to the registry of at most one factory. -/
theorem C87_one_factory {c : Chain} (hl : c.Lawful) {w : World} (hw : Reachable c w) {a a' : Addr} {adm adm' : Option Addr}
    {s s' : Factory.State} (ha : w.contracts a = some ⟨adm, .factory s⟩) (ha' : w.contracts a' = some ⟨adm', .factory s'⟩)
    {x y : Bytes × PairInfoRaw} (hx : x ∈ s.pairs) (hy : y ∈ s'.pairs) (h : x.2.contractAddr = y.2.contractAddr) :
    a = a' ∧ x = y := by
  obtain ⟨p, st, h1, h2⟩ := C87_factory_administers hl hw ha hx
  obtain ⟨p', st', h1', h2'⟩ := C87_factory_administers hl hw ha' hy
  rw [h] at h1
  have e := canon_inj hl hw.contractsAt h2 h2' h1 h1'
  subst e
  rw [h2] at h2'
  cases h2'
  rw [ha] at ha'
  cases ha'
  exact ⟨rfl, C87_distinct hl hw ha hx hy h⟩

/-- **C87**, seen from outside: the factory's answers to two pair queries name the same contract only if they are the same answer, and
that contract's admin is the factory. -/
theorem C87_answers {c : Chain} (hl : c.Lawful) {w : World} (hw : Reachable c w) {a : Addr} {adm : Option Addr}
    {s : Factory.State} (ha : w.contracts a = some ⟨adm, .factory s⟩) {as bs : AssetInfo × AssetInfo} {i j : PairInfo}
    (hi : Factory.queryPair c.api s as = .ok i) (hj : Factory.queryPair c.api s bs = .ok j)
    (h : i.contractAddr = j.contractAddr) : i = j ∧ ∃ st, w.contracts i.contractAddr = some ⟨some a, st⟩ := by
  simp only [Factory.queryPair, bind_eq_ok, okOr_eq_ok] at hi hj
  obtain ⟨_, _, _, _, e, he, hn⟩ := hi
  obtain ⟨_, _, _, _, e', he', hn'⟩ := hj
  have hc : ∀ {e : PairInfoRaw} {i : PairInfo}, e.toNormal c.api = .ok i → c.api.human e.contractAddr = some i.contractAddr := by
    intro e i hn
    simp only [PairInfoRaw.toNormal, bind_eq_ok, humanize_eq_ok, pure_eq_ok] at hn
    obtain ⟨_, _, _, g2, _, _, _, _, rfl⟩ := hn
    exact g2
  have h1 := hc hn
  have h2 := hc hn'
  have h3 : e.contractAddr = e'.contractAddr := by
    have a1 := hl.canon_human _ _ h1
    have a2 := hl.canon_human _ _ h2
    rw [h, a2] at a1
    exact (Option.some.inj a1).symm
  have h4 := C87_distinct hl hw ha (get_mem he) (get_mem he') h3
  have h5 : e = e' := (Prod.mk.inj h4).2
  subst h5
  rw [hn] at hn'
  cases hn'
  obtain ⟨p, st, g1, g2⟩ := C87_factory_administers hl hw ha (get_mem he)
  obtain ⟨n, _, rfl⟩ := hw.contractsAt _ _ g2
  have := hl.human_canon g1
  rw [h1] at this
  rw [Option.some.inj this]
  exact ⟨rfl, st, g2⟩

namespace Demo

theorem mixed_reachable : Reachable chain mixed :=
  .step _ _ (deployed_reachable.later (later_runs foreign_run)) (.tx reenter 20 _ _ _ _ isUser_user mixed_run)

/-- In the state of `C41_counterexample`, where an entry names a pair of other assets, the theorems apply: there are three
entries. -/
example {k : Bytes} {e : PairInfoRaw} (he : (k, e) ∈ (facState mixed fac).pairs) :=
  C87_factory_administers lawful mixed_reachable (facState_eq (w := mixed) (a := fac) (by decide +kernel)) he
example : (facState mixed fac).pairs.length = 3 ∧ ((facState mixed fac).pairs.map fun e => e.2.contractAddr).Nodup := by
  decide +kernel
example : (val (Factory.queryPair chain.api (facState mixed fac) (.token tA, .token tD))).isSome = true ∧
    (val (Factory.queryPair chain.api (facState mixed fac) (.token tD, .token tA))).isSome = true := by decide +kernel

end Demo
end Halo
