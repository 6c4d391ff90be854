import Verif.Proofs.Interleave
/-!
# C64: several loops at the same time

The queries of a list of jobs are created and stay alive; their loops take turns in any order, one access at a time
(`Turns` in `Spec/Interleave.lean`).
-/
namespace Ellecs.WorldSpec
open World Demo

/-- C64: loops over queries that are alive at the same time do not disturb each other.  Whatever the order of the turns:
no turn is a fault, and there are at most `N` of them.  When all loops have ended, each of them remembers what it would
remember if it had been alone, and the components it can write have the values it would have given them alone; all other
components are unchanged. -/
theorem C64_interleaved {τ : Type} {w : World} (hw : Reachable w) (hlen : w.archetypes.length < 2 ^ 32) {ls : List RwLock} {qs : List LiveQuery}
    (hr : LockRun w ls qs) {a : AWorld} (ha : w.Shows a) {jobs : List (Job τ)} (hok : ∀ j ∈ jobs, j.Ok w a) {ths : List (Task τ × List Guard)} {v : World}
    (hs : Job.startAll jobs { w with locks := ls } = .ok ths v) :
    ∃ orders : List (List EcsId), Pairs (fun j es => es.Nodup ∧ ∀ e, e ∈ es ↔ (j.row a e).isSome = true) jobs orders ∧
      ∃ N : Nat, ∀ (n : Nat) (v' : World) (ts : List (Task τ)), Turns n v (ths.map Prod.fst) v' ts →
        n ≤ N ∧ ts.length = jobs.length ∧
        (∀ t ∈ ts, (∃ x, t.phase = .ended x) ∨ ∃ r, t.turn v' = some (.ok r)) ∧
        ((∀ t ∈ ts, ∃ x, t.phase = .ended x) →
          ∃ (u : World) (b : AWorld), Job.dropAll (ths.map Prod.snd) v' = .ok () { u with locks := ls } ∧
            Reachable u ∧ SameShape w u ∧ u.locks = w.locks ∧ LockRun u ls qs ∧ u.Shows b ∧ b = { a with cell := b.cell } ∧
            (∀ (i : Nat) (j : Job τ) (es : List EcsId) (t : Task τ), jobs[i]? = some j → orders[i]? = some es → ts[i]? = some t →
              t.phase = .ended (j.alone a es).2 ∧ ∀ c, j.Writes a c → ∀ e, b.cell e c = (j.alone a es).1.cell e c) ∧
            ∀ c, (∀ j ∈ jobs, ¬ j.Writes a c) → ∀ e, b.cell e c = a.cell e c) := by
  obtain ⟨ls', qs', ds, rfl, h2, h3, h4, h5, h6⟩ := startAll_spec hw hlen ha hr hok hs
  have hsep := separate_of hw h2 h3
  have hfit : ∀ d ∈ ds, d.Fits w a := fun d hd => by
    obtain ⟨j, _, hj⟩ := (pairs_mem h5).2 d hd
    exact hj.fits
  have hlenj := Pairs.length' h5
  refine ⟨ds.map Plan.es, Pairs.map_right' h5 (fun j d _ (hh : PlanOf w a j d) => ⟨hh.nodup, hh.rows⟩),
    (ds.map (fun d => d.es.length * (2 * d.fs.length + 3) + 1)).sum, fun n v' ts ht => ?_⟩
  obtain ⟨u, B, own, ns, rfl, g1, g2⟩ := group_turns hw ha hfit hsep (group_start hw ha h6) ls' ht
  refine ⟨Nat.le_trans (Nat.le_add_left _ _) g1, by rw [g2.len, hlenj], fun t ht => ?_, fun hend => ?_⟩
  · by_cases he : ∃ x, t.phase = .ended x
    · exact Or.inl he
    · obtain ⟨i, hi⟩ := List.mem_iff_getElem?.1 ht
      obtain ⟨u', t', _, _, _, k1, _⟩ := group_turn hw ha hfit hsep g2 ls' hi (fun x hx => he ⟨x, hx⟩)
      exact Or.inr ⟨_, k1⟩
  · refine ⟨u, B, h4 u, g2.reach, g2.shape, g2.locks, lockRun_shape g2.shape g2.locks hr, g2.shows, g2.only, ?_, ?_⟩
    · intro i j es t k1 k2 k3
      rw [List.getElem?_map] at k2
      cases hd : ds[i]? with
      | none => rw [hd] at k2; cases k2
      | some d =>
        rw [hd] at k2
        injection k2 with k2; subst k2
        obtain ⟨j', q1, q2⟩ := pairs_index h5 hd
        rw [k1] at q1; injection q1 with q1; subst q1
        have hi : i < ds.length := (List.getElem?_eq_some_iff.1 hd).1
        obtain ⟨n0, hn⟩ : ∃ n0, ns[i]? = some n0 := ⟨ns[i]'(by rw [g2.len']; exact hi), List.getElem?_eq_getElem _⟩
        obtain ⟨x, hx⟩ := hend t (List.mem_of_getElem? k3)
        have hat := g2.places i d t n0 hd k3 hn
        have hres : (own i, x) = d.result a := by
          cases hat with
          | next hp => rw [hx] at hp; cases hp
          | reading hp => rw [hx] at hp; cases hp
          | storing hp => rw [hx] at hp; cases hp
          | ended hp hh => rw [hx] at hp; cases hp; exact hh
        rw [q2.result] at hres
        rw [← hres]
        exact ⟨hx, fun c hc e => g2.view i d hd c ⟨_, (q2.writes c).1 hc, Or.inl rfl⟩ e⟩
    · intro c hc e
      refine g2.frame c (fun d hd hm => ?_) e
      obtain ⟨j, j1, j2⟩ := (pairs_mem h5).2 d hd
      exact hc j j1 ((j2.writes c).2 hm)

/-- C64: the loops can always go on to their ends. -/
theorem C64_finish {τ : Type} {w : World} (hw : Reachable w) (hlen : w.archetypes.length < 2 ^ 32) {ls : List RwLock} {qs : List LiveQuery}
    (hr : LockRun w ls qs) {a : AWorld} (ha : w.Shows a) {jobs : List (Job τ)} (hok : ∀ j ∈ jobs, j.Ok w a) {ths : List (Task τ × List Guard)} {v : World}
    (hs : Job.startAll jobs { w with locks := ls } = .ok ths v) {n : Nat} {v1 : World} {ts1 : List (Task τ)} (h1 : Turns n v (ths.map Prod.fst) v1 ts1) :
    ∃ (m : Nat) (v' : World) (ts : List (Task τ)), n ≤ m ∧ Turns m v (ths.map Prod.fst) v' ts ∧ ∀ t ∈ ts, ∃ x, t.phase = .ended x := by
  obtain ⟨_, _, N, hN⟩ := C64_interleaved hw hlen hr ha hok hs
  have key : ∀ (k n : Nat) (v1 : World) (ts1 : List (Task τ)), N - n ≤ k → Turns n v (ths.map Prod.fst) v1 ts1 →
      ∃ (m : Nat) (v' : World) (ts : List (Task τ)), n ≤ m ∧ Turns m v (ths.map Prod.fst) v' ts ∧ ∀ t ∈ ts, ∃ x, t.phase = .ended x := by
    intro k
    induction k with
    | zero =>
      intro n v1 ts1 hk ht
      refine ⟨n, v1, ts1, Nat.le_refl _, ht, fun t hm => ?_⟩
      obtain ⟨h1, _, h3, _⟩ := hN n v1 ts1 ht
      rcases h3 t hm with h | ⟨⟨w', t'⟩, h⟩
      · exact h
      · obtain ⟨i, hi⟩ := List.mem_iff_getElem?.1 hm
        have := (hN _ _ _ (.turn i ht hi h)).1
        omega
    | succ k ih =>
      intro n v1 ts1 hk ht
      by_cases he : ∀ t ∈ ts1, ∃ x, t.phase = .ended x
      · exact ⟨n, v1, ts1, Nat.le_refl _, ht, he⟩
      · obtain ⟨t, hm, hne⟩ : ∃ t, t ∈ ts1 ∧ ¬ ∃ x, t.phase = .ended x := by
          apply Classical.byContradiction
          intro hh
          exact he (fun t hm => Classical.byContradiction (fun hx => hh ⟨t, hm, hx⟩))
        obtain ⟨_, _, h3, _⟩ := hN n v1 ts1 ht
        rcases h3 t hm with h | ⟨⟨w', t'⟩, h⟩
        · exact absurd h hne
        · obtain ⟨i, hi⟩ := List.mem_iff_getElem?.1 hm
          obtain ⟨m, v', ts, k1, k2, k3⟩ := ih (n + 1) w' (ts1.set i t') (by omega) (.turn i ht hi h)
          exact ⟨m, v', ts, by omega, k2, k3⟩
  exact key _ n v1 ts1 (Nat.le_refl _) h1

/-- C64: the order of the turns does not matter: two complete executions end with the same memories and with worlds that
show the same. -/
theorem C64_any_order {τ : Type} {w : World} (hw : Reachable w) (hlen : w.archetypes.length < 2 ^ 32) {ls : List RwLock} {qs : List LiveQuery}
    (hr : LockRun w ls qs) {a : AWorld} (ha : w.Shows a) {jobs : List (Job τ)} (hok : ∀ j ∈ jobs, j.Ok w a) {ths : List (Task τ × List Guard)} {v : World}
    (hs : Job.startAll jobs { w with locks := ls } = .ok ths v) {n1 n2 : Nat} {v1 v2 : World} {ts1 ts2 : List (Task τ)}
    (h1 : Turns n1 v (ths.map Prod.fst) v1 ts1) (h2 : Turns n2 v (ths.map Prod.fst) v2 ts2) (e1 : ∀ t ∈ ts1, ∃ x, t.phase = .ended x)
    (e2 : ∀ t ∈ ts2, ∃ x, t.phase = .ended x) :
    ts1.map Task.phase = ts2.map Task.phase ∧ ∃ (u1 u2 : World) (b : AWorld), Job.dropAll (ths.map Prod.snd) v1 = .ok () { u1 with locks := ls } ∧
      Job.dropAll (ths.map Prod.snd) v2 = .ok () { u2 with locks := ls } ∧ u1.Shows b ∧ u2.Shows b := by
  obtain ⟨orders, ho, N, hN⟩ := C64_interleaved hw hlen hr ha hok hs
  obtain ⟨_, l1, _, f1⟩ := hN _ _ _ h1
  obtain ⟨_, l2, _, f2⟩ := hN _ _ _ h2
  obtain ⟨u1, b1, p1, _, _, _, _, p2, p3, p4, p5⟩ := f1 e1
  obtain ⟨u2, b2, q1, _, _, _, _, q2, q3, q4, q5⟩ := f2 e2
  have hol := Pairs.length' ho
  have hget : ∀ i, i < jobs.length → ∃ j es, jobs[i]? = some j ∧ orders[i]? = some es := fun i hi =>
    ⟨jobs[i], orders[i]'(hol ▸ hi), List.getElem?_eq_getElem _, List.getElem?_eq_getElem _⟩
  refine ⟨?_, u1, u2, b1, p1, q1, p2, ?_⟩
  · apply List.ext_getElem?
    intro i
    rw [List.getElem?_map, List.getElem?_map]
    by_cases hi : i < jobs.length
    · obtain ⟨j, es, g1, g2⟩ := hget i hi
      have k1 : ts1[i]? = some (ts1[i]'(l1 ▸ hi)) := List.getElem?_eq_getElem _
      have k2 : ts2[i]? = some (ts2[i]'(l2 ▸ hi)) := List.getElem?_eq_getElem _
      rw [k1, k2, Option.map_some, Option.map_some, (p4 i j es _ g1 g2 k1).1, (q4 i j es _ g1 g2 k2).1]
    · rw [List.getElem?_eq_none (by omega), List.getElem?_eq_none (by omega)]
  · have : b2 = b1 := by
      rw [q3, p3]
      congr 1
      funext e c
      by_cases hc : ∀ j ∈ jobs, ¬ j.Writes a c
      · rw [p5 c hc, q5 c hc]
      · obtain ⟨j, hj, hw'⟩ : ∃ j, j ∈ jobs ∧ j.Writes a c := by
          apply Classical.byContradiction
          intro hh
          exact hc (fun j hj hw' => hh ⟨j, hj, hw'⟩)
        obtain ⟨i, hi⟩ := List.mem_iff_getElem?.1 hj
        have hlt := (List.getElem?_eq_some_iff.1 hi).1
        obtain ⟨j', es, g1, g2⟩ := hget i hlt
        rw [hi] at g1; injection g1 with g1; subst g1
        have k1 : ts1[i]? = some (ts1[i]'(l1 ▸ hlt)) := List.getElem?_eq_getElem _
        have k2 : ts2[i]? = some (ts2[i]'(l2 ▸ hlt)) := List.getElem?_eq_getElem _
        rw [(p4 i j es _ hi g2 k1).2 c hw', (q4 i j es _ hi g2 k2).2 c hw']
    rw [← this]; exact q2

/-- C64: two loops whose queries can be alive at the same time can also run one after the other, in either order, with
the same result. -/
theorem C64_commute {w : World} (hw : Reachable w) (hlen : w.archetypes.length < 2 ^ 32) {ls : List RwLock} {qs : List LiveQuery}
    (hr : LockRun w ls qs) {a : AWorld} (ha : w.Shows a) {j k : Job Unit} (hj : j.Ok w a) (hk : k.Ok w a) {ths : List (Task Unit × List Guard)} {v : World}
    (hs : Job.startAll [j, k] { w with locks := ls } = .ok ths v) : k.pass (j.pass a) = j.pass (k.pass a) := by
  obtain ⟨ls', qs', ds, rfl, h2, h3, h4, h5, h6⟩ := startAll_spec hw hlen ha hr (jobs := [j, k]) (fun x hx => by
    rcases List.mem_cons.1 hx with rfl | hx
    · exact hj
    · rcases List.mem_cons.1 hx with rfl | hx
      · exact hk
      · cases hx) hs
  have hsep := separate_of hw h2 h3
  cases h5 with
  | @cons _ d _ _ p1 h5 =>
  cases h5 with
  | @cons _ d' _ _ p2 h5 =>
  cases h5
  have hnone : ∀ c, (∀ e, ¬ w.HasComp e c) → ∀ e, a.cell e c = none := fun c hc e => by
    cases hh : a.cell e c with
    | none => rfl
    | some bs => exact absurd ⟨bs, (ha.cell e c bs).1 hh⟩ (hc e)
  obtain ⟨f, hf⟩ := pass_plan ha p1
  obtain ⟨g, hg⟩ := pass_plan ha p2
  rw [hf a rfl, hg a rfl, hg (a.runDyn d.fs f) rfl, hf (a.runDyn d'.fs g) rfl]
  exact runDyn_comm (fun c q1 q2 => hnone c (hsep 0 1 d d' c (by omega) rfl rfl q1 q2)) (fun c q1 q2 => hnone c (hsep 1 0 d' d c (by omega) rfl rfl q1 q2))

/-! ## A case -/

def isOk {α : Type} : EStateM.Result Fault World α → Bool
  | .ok _ _ => true
  | .error _ _ => false

theorem isOk_some {α : Type} {r : EStateM.Result Fault World α} (h : isOk r = true) : ∃ x v, r = .ok x v := by
  cases r with
  | ok x v => exact ⟨x, v, rfl⟩
  | error f v => cases h

/-- Increase every `A`, set every `B` to 5, and count the entities that have a `Z`. -/
def three : List (Job Nat) :=
  [.static [.mut tA, .ids] (fun n ss => (n, bump ss)) 0, .dyn [.mut (ent 2)] (fun n _ => (n, [some (val 8 5)])) 0, .static [.ref tZ] (fun n _ => (n + 1, [])) 0]

theorem three_ok {a : AWorld} (ha : demo.Shows a) : ∀ j ∈ three, j.Ok demo a := by
  have hm : demo.InfoIs (ent 2) (ComponentMeta.fromGeneric tB) := by decide +kernel
  intro j hj
  simp only [three, List.mem_cons, List.not_mem_nil, or_false] at hj
  rcases hj with rfl | rfl | rfl
  · exact ⟨by simp, fun x ss i t bs h1 h2 => bump_typed () ss i t bs h1 h2⟩
  · refine ⟨by simp, ?_, Or.inl demo_calm⟩
    intro x ss i c m bs h1 h2 h3
    match i, h1 with
    | 0, h1 =>
      cases h1
      cases h3
      rw [(ha.info _ _).2 hm] at h2
      cases h2
      rfl
  · refine ⟨by simp, ?_⟩
    intro x ss i t bs h1 h2
    cases i <;> cases h2

theorem startAll_here {τ : Type} {w : World} {jobs : List (Job τ)} {ths : List (Task τ × List Guard)} {v : World} (h : Job.startAll jobs w = .ok ths v) :
    Job.startAll jobs { w with locks := w.locks } = .ok ths v := h

theorem three_starts : isOk (Job.startAll three demo) = true := by decide +kernel

theorem three_case {w : World} (hw : Reachable w) (hlen : w.archetypes.length < 2 ^ 32) {a : AWorld} (ha : w.Shows a) (hok : ∀ j ∈ three, j.Ok w a)
    {ths : List (Task Nat × List Guard)} {v : World} (hs : Job.startAll three w = .ok ths v) (c1 : w.Has (ent 0) (ent 1) (val 4 1)) (c2 : w.Has (ent 6) (ent 2) (val 8 8))
    (t1 : w.typeMap tA = some (ent 1)) (r0 : w.Row (ent 0)) (r6 : w.Row (ent 6)) :
    (∃ n v' ts, Turns n v (ths.map Prod.fst) v' ts ∧ ∀ t ∈ ts, ∃ x, t.phase = .ended x) ∧
    ∀ n v' ts, Turns n v (ths.map Prod.fst) v' ts → (∀ t ∈ ts, ∃ x, t.phase = .ended x) →
      ∃ u : World, Job.dropAll (ths.map Prod.snd) v' = .ok () { u with locks := w.locks } ∧ u.Has (ent 0) (ent 1) (val 4 2) ∧ u.Has (ent 6) (ent 2) (val 8 5) := by
  have hi := hw.sound.inv
  constructor
  · obtain ⟨m, v', ts, _, h1, h2⟩ := C64_finish (ls := w.locks) hw hlen (.refl _ _) ha hok (startAll_here hs) (.refl _ _)
    exact ⟨m, v', ts, h1, h2⟩
  · intro n v' ts h1 h2
    obtain ⟨orders, ho, N, hN⟩ := C64_interleaved (ls := w.locks) hw hlen (.refl _ _) ha hok (startAll_here hs)
    obtain ⟨_, hl, _, hf⟩ := hN n v' ts h1
    obtain ⟨u, b, g1, _, _, _, _, g2, _, g3, _⟩ := hf h2
    have c1 : a.cell (ent 0) (ent 1) = some (val 4 1) := (ha.cell _ _ _).2 c1
    have c2 : a.cell (ent 6) (ent 2) = some (val 8 8) := (ha.cell _ _ _).2 c2
    have t1 : a.types tA = some (ent 1) := by rw [ha.types]; exact t1
    have r0 : a.row [.mut tA, .ids] (ent 0) = some [.value (val 4 1), .id (ent 0)] := by
      rw [row_eq hi ha r0]
      exact mapM_some (by simp only [AWorld.seen, t1, Option.bind_some, c1, Option.map_some]) (mapM_some rfl rfl)
    have r1 : a.rowDyn [.mut (ent 2)] (ent 6) = some [.value (val 8 8)] := by
      rw [rowDyn_eq hi ha r6]
      exact mapM_some (by simp only [AWorld.seenDyn, c2, Option.map_some]) rfl
    match orders, ho with
    | es0 :: es1 :: es2 :: [], .cons o0 (.cons o1 _) =>
      match ts, hl with
      | x0 :: x1 :: x2 :: [], _ =>
        have k0 := (g3 0 _ es0 x0 rfl rfl rfl).2 (ent 1) ⟨fun p hp t ht => by
          simp only [List.mem_cons, List.not_mem_nil, or_false] at hp
          rcases hp with rfl | rfl <;> rcases ht with ht | ht <;> cases ht
          rw [t1]; simp, tA, by simp, t1⟩ (ent 0)
        have k1 := (g3 1 _ es1 x1 rfl rfl rfl).2 (ent 2) (by simp [Job.Writes]) (ent 6)
        refine ⟨u, g1, (g2.cell _ _ _).1 ?_, (g2.cell _ _ _).1 ?_⟩
        · rw [k0]
          have := sweep_result (row := a.row [.mut tA, .ids]) (cells := a.cells [.mut tA, .ids]) (f := bump) es0 a (0 : Nat) o0.1 (e := ent 0) ((o0.2 _).2 (by
            simp only [Job.row]; rw [r0]; rfl)) r0
          simp only [Job.alone]
          rw [this]
          have hb : bump [.value (val 4 1), .id (ent 0)] = [some (val 4 2)] := by decide
          rw [hb]
          simp only [AWorld.cells, t1, AWorld.storeAll, and_self, if_true]
        · rw [k1]
          have := sweep_result (row := a.rowDyn [.mut (ent 2)]) (cells := AWorld.cellsDyn [.mut (ent 2)]) (f := fun _ => [some (val 8 5)]) es1 a (0 : Nat) o1.1 (e := ent 6) ((o1.2 _).2 (by
            simp only [Job.row]; rw [r1]; rfl)) r1
          simp only [Job.alone]
          rw [this]
          simp only [AWorld.cellsDyn, AWorld.storeAll, and_self, if_true]

/-- C64: the three queries can be alive at the same time; whatever the order of the turns, in the end entity 0 has a larger
`A`, and entity 6 a new `B`. -/
example : ∃ ths v, Job.startAll three demo = .ok ths v ∧ (∃ n v' ts, Turns n v (ths.map Prod.fst) v' ts ∧ ∀ t ∈ ts, ∃ x, t.phase = .ended x) ∧
    ∀ n v' ts, Turns n v (ths.map Prod.fst) v' ts → (∀ t ∈ ts, ∃ x, t.phase = .ended x) →
      ∃ u : World, Job.dropAll (ths.map Prod.snd) v' = .ok () { u with locks := demo.locks } ∧ u.Has (ent 0) (ent 1) (val 4 2) ∧ u.Has (ent 6) (ent 2) (val 8 5) := by
  obtain ⟨a, ha, _⟩ := C57_view demo_reachable
  obtain ⟨ths, v, hs⟩ := isOk_some three_starts
  exact ⟨ths, v, hs, three_case demo_reachable (by decide +kernel) ha (three_ok ha) hs (by decide +kernel) (by decide +kernel) (by decide +kernel) (by decide +kernel)
    (by decide +kernel)⟩

theorem commute_here {w : World} (hw : Reachable w) (hlen : w.archetypes.length < 2 ^ 32) {a : AWorld} (ha : w.Shows a) {j k : Job Unit} (hj : j.Ok w a)
    (hk : k.Ok w a) (hs : isOk (Job.startAll [j, k] w) = true) : k.pass (j.pass a) = j.pass (k.pass a) := by
  obtain ⟨ths, v, hs⟩ := isOk_some hs
  exact C64_commute (ls := w.locks) hw hlen (.refl _ _) ha hj hk (startAll_here hs)

/-- `C64_commute`: increase every `A`, and clear the `B` of the entities that have a `B`. -/
example : ∃ a, demo.Shows a ∧ (Job.static [.mut tB] (Body.of (fun _ => [some (val 8 0)])) ()).pass ((Job.static [.mut tA, .ids] (Body.of bump) ()).pass a) =
    (Job.static [.mut tA, .ids] (Body.of bump) ()).pass ((Job.static [.mut tB] (Body.of (fun _ => [some (val 8 0)])) ()).pass a) := by
  obtain ⟨a, ha, _⟩ := C57_view demo_reachable
  refine ⟨a, ha, commute_here demo_reachable (by decide +kernel) ha ⟨by simp, bump_typed⟩ ⟨by simp, ?_⟩ (by decide +kernel)⟩
  intro x ss i t bs h1 h2
  match i, h1 with
  | 0, h1 => cases h1; cases h2; rfl

end Ellecs.WorldSpec
