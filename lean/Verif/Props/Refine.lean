import Verif.Proofs.Cases
import Verif.Proofs.Laws
import Verif.Props.Query
/-!
# C57, C58, C59: the world as a map

`AWorld` (in `Spec/Abstract.lean`) is a world without tables: finite maps from entities and components to values.
`w.Shows a` says that `a` is what there is to see in `w`.
-/
namespace Ellecs.WorldSpec
open World Demo

/-! ## C57 -/

/-- C57: a new world shows the empty maps. -/
theorem C57_new : World.new.Shows AWorld.new := by
  have h := Reachable.new.sound.inv
  have := view_shows h
  refine ⟨rfl, rfl, ?_, ?_, ?_, ?_⟩
  · intro x m
    constructor
    · intro hh; cases hh
    · intro hh
      obtain ⟨⟨k, r, a, h1, _⟩, _⟩ := (infoIs_iff h).1 hh
      simp [World.new] at h1
  · intro e c bs
    constructor
    · intro hh; cases hh
    · rintro ⟨k, r, a, v, h1, _⟩
      simp [World.new] at h1
  · intro c
    constructor
    · intro hh; cases hh
    · rintro ⟨a, h1, _⟩
      simp [World.new] at h1
  · intro c p
    constructor
    · intro hh; cases hh
    · rintro ⟨i, l, h1, _⟩
      simp [World.new] at h1

/-- C57: every world shows exactly one collection of maps. -/
theorem C57_view {w : World} (hw : Reachable w) : ∃ a, w.Shows a ∧ ∀ b, w.Shows b → b = a :=
  ⟨w.view, view_shows hw.sound.inv, fun _ hb => shows_unique hb (view_shows hw.sound.inv)⟩

/-- C57: every call does to the tables what it does to the maps: it returns the same value or panics for the same
reason, and what can be seen afterwards is the same. -/
theorem C57_call {w : World} (hw : Reachable w) {a : AWorld} (ha : w.Shows a) {q : Ask} (hq : q.Ok w) : Alike (q.exec w) (a.ask q) :=
  have hs := hw.sound
  alike_iff.2 (sim_ask hs.inv hs.nowrap.ready hs.idle ha hq)

/-- C57: in a conversation with a world all answers are those of the maps. -/
theorem C57_talk {w w' : World} (hw : Reachable w) {a : AWorld} (ha : w.Shows a) {tr : List (Ask × Except Fault Answer)} (h : Talk w tr w') :
    (a.answers (tr.map Prod.fst)).1 = tr.map Prod.snd ∧ w'.Shows (a.answers (tr.map Prod.fst)).2 :=
  h.shows hw ha

/-- C57 for a program that starts with a new world. -/
theorem C57_program {w : World} {tr : List (Ask × Except Fault Answer)} (h : Talk World.new tr w) :
    (AWorld.new.answers (tr.map Prod.fst)).1 = tr.map Prod.snd ∧ w.Shows (AWorld.new.answers (tr.map Prod.fst)).2 :=
  h.shows .new C57_new

/-- C57: what is read from the rows of a static query is what the maps say: one row for each entity that has one. -/
theorem C57_query_rows {w w' : World} (hw : Reachable w) (hlen : w.archetypes.length < 2 ^ 32) {a : AWorld} (ha : w.Shows a)
    {ps : List Param} (hne : ps ≠ []) {q : StaticQuery} (hq : query ps w = .ok q w') :
    ∃ (it : StaticIter) (rows : List (List Item)) (es : List EcsId) (ss : List (List AWorld.Seen)),
      q.iter w' = .ok it ∧ Produces (fun s => StaticIter.next w' s) it rows ∧ rows.mapM (fun r => r.mapM w.readItem) = .ok ss ∧
      es.Nodup ∧ (∀ e, e ∈ es ↔ (a.row ps e).isSome = true) ∧ es.map (a.row ps) = ss.map some := by
  have hi := hw.sound.inv
  obtain ⟨it, es, rows, h1, h2, h3, h4, h5⟩ := C14_iter_exact hw ⟨w.locks, rfl, rfl⟩ hlen hne hq
  obtain ⟨ss, s1, s2⟩ := pairs_mapM (k := a.row ps) (g := fun r => r.mapM w.readItem) h5 (fun e row he hr => by
    rw [row_eq hi ha ((h4 e).1 he).1]
    exact readRow_eq hi ha hr)
  exact ⟨it, rows, es, ss, h1, h2, s1, h3, fun e => (h4 e).trans (row_isSome hi ha).symm, s2⟩

/-- C57: the same for looking up one entity in a static query. -/
theorem C57_query_get {w w' : World} (hw : Reachable w) {a : AWorld} (ha : w.Shows a) {ps : List Param} {q : StaticQuery} (hq : query ps w = .ok q w')
    {e : EcsId} (he : e.uindex < a.ents.generations.length) :
    ∃ r, q.get w' e = .ok r ∧ r.isSome = (a.row ps e).isSome ∧ ∀ items, r = some items → ∃ ss, items.mapM w.readItem = .ok ss ∧ a.row ps e = some ss := by
  have hi := hw.sound.inv
  obtain ⟨r, h1, h2, h3⟩ := C13_get_exact hw ⟨w.locks, rfl, rfl⟩ hq (e := e) (by rw [← ha.ents]; exact he)
  refine ⟨r, h1, Bool.eq_iff_iff.2 (h2.trans (row_isSome hi ha).symm), ?_⟩
  intro items hr
  have : HasTypes w ps e := h2.1 (by rw [hr]; rfl)
  rw [row_eq hi ha this.1]
  exact readRow_eq hi ha (h3 items hr)

/-- C57: the same for the rows of a dynamic query. -/
theorem C57_dynamic_rows {w w' : World} (hw : Reachable w) (hlen : w.archetypes.length < 2 ^ 32) {a : AWorld} (ha : w.Shows a)
    {fs : List Fetch} (hne : fs ≠ []) (hb : Calm w ∨ ∀ f ∈ fs, ∀ c, f.Of c → a.info c ≠ none) {q : DynQuery} (hq : queryDynamic fs w = .ok q w') :
    ∃ (it : DynIter) (rows : List (List Ptr)) (es : List EcsId) (ss : List (List AWorld.Seen)),
      q.iter w' = .ok it ∧ Produces (fun s => DynIter.next w' s) it rows ∧
      rows.mapM (fun r => (fs.zip r).mapM (fun x => w.readFetch x.1 x.2)) = .ok ss ∧
      es.Nodup ∧ (∀ e, e ∈ es ↔ (a.rowDyn fs e).isSome = true) ∧ es.map (a.rowDyn fs) = ss.map some := by
  have hi := hw.sound.inv
  have hb : Calm w ∨ ∀ f ∈ fs, ∀ c, f.Of c → w.Row c := hb.imp_right (fun hh f hf c hc => by
    apply Classical.byContradiction
    intro hr
    exact hh f hf c hc ((ha.infoNone hi).2 hr))
  obtain ⟨it, es, rows, h1, h2, h3, h4, h5⟩ := C15_iter_exact hw ⟨w.locks, rfl, rfl⟩ hlen hne hb hq
  obtain ⟨ss, s1, s2⟩ := pairs_mapM (k := a.rowDyn fs) (g := fun r => (fs.zip r).mapM (fun x => w.readFetch x.1 x.2)) h5 (fun e row he hr => by
    rw [rowDyn_eq hi ha ((h4 e).1 he).1]
    exact readDyn_eq hi ha hr)
  exact ⟨it, rows, es, ss, h1, h2, s1, h3, fun e => (h4 e).trans (rowDyn_isSome hi ha).symm, s2⟩

/-! ## C58 -/

/-- C58: worlds that show the same cannot be told apart: to the same questions they give the same answers, and they
still show the same afterwards. -/
theorem C58_same_answers {w v w' v' : World} (hw : Reachable w) (hv : Reachable v) (hs : SameView w v)
    {tr tr' : List (Ask × Except Fault Answer)} (h1 : Talk w tr w') (h2 : Talk v tr' v') (hq : tr.map Prod.fst = tr'.map Prod.fst) :
    tr = tr' ∧ SameView w' v' := by
  obtain ⟨a, ha, hb⟩ := hs
  obtain ⟨q1, q2⟩ := h1.shows hw ha
  obtain ⟨r1, r2⟩ := h2.shows hv hb
  rw [← hq] at r1 r2
  have hsnd : tr.map Prod.snd = tr'.map Prod.snd := q1.symm.trans r1
  refine ⟨?_, _, q2, r2⟩
  have key : ∀ (x y : List (Ask × Except Fault Answer)), x.map Prod.fst = y.map Prod.fst → x.map Prod.snd = y.map Prod.snd → x = y := by
    intro x
    induction x with
    | nil => intro y hy _; cases y with | nil => rfl | cons _ _ => cases hy
    | cons p x ih =>
      intro y hy hz
      cases y with
      | nil => cases hy
      | cons p' y =>
        injection hy with hy1 hy2
        injection hz with hz1 hz2
        rw [ih y hy2 hz2, Prod.ext hy1 hz1]
  exact key _ _ hq hsnd

/-- C58: the rows of a static query are the same in worlds that show the same, up to their order. -/
theorem C58_same_rows {w v w' v' : World} (hw : Reachable w) (hv : Reachable v) (hs : SameView w v) (hlw : w.archetypes.length < 2 ^ 32)
    (hlv : v.archetypes.length < 2 ^ 32) {ps : List Param} (hne : ps ≠ []) {q p : StaticQuery} (hq : query ps w = .ok q w')
    (hp : query ps v = .ok p v') {it jt : StaticIter} {rows rows' : List (List Item)} (h1 : q.iter w' = .ok it)
    (h2 : Produces (fun s => StaticIter.next w' s) it rows) (h3 : p.iter v' = .ok jt) (h4 : Produces (fun s => StaticIter.next v' s) jt rows') :
    ∃ ss ss' : List (List AWorld.Seen), rows.mapM (fun r => r.mapM w.readItem) = .ok ss ∧ rows'.mapM (fun r => r.mapM v.readItem) = .ok ss' ∧ ss.Perm ss' := by
  obtain ⟨a, ha, hb⟩ := hs
  obtain ⟨it', rows2, es, ss, q1, q2, q3, q4, q5, q6⟩ := C57_query_rows hw hlw ha hne hq
  obtain ⟨jt', rows3, es', ss', r1, r2, r3, r4, r5, r6⟩ := C57_query_rows hv hlv hb hne hp
  rw [h1] at q1; injection q1 with q1; subst q1
  rw [h3] at r1; injection r1 with r1; subst r1
  have := Produces.uniq' h2 q2; subst this
  have := Produces.uniq' h4 r2; subst this
  refine ⟨ss, ss', q3, r3, ?_⟩
  have hperm : es.Perm es' := (List.perm_ext_iff_of_nodup q4 r4).2 (fun e => (q5 e).trans (r5 e).symm)
  have := hperm.map (a.row ps)
  rw [q6, r6] at this
  have := this.filterMap id
  simpa using this

/-- C58: the same for dynamic queries. -/
theorem C58_same_dynamic_rows {w v w' v' : World} (hw : Reachable w) (hv : Reachable v) (hs : SameView w v) (hlw : w.archetypes.length < 2 ^ 32)
    (hlv : v.archetypes.length < 2 ^ 32) {fs : List Fetch} (hne : fs ≠ []) (hb : ∀ f ∈ fs, ∀ c, f.Of c → w.Row c) {q p : DynQuery}
    (hq : queryDynamic fs w = .ok q w') (hp : queryDynamic fs v = .ok p v') {it jt : DynIter} {rows rows' : List (List Ptr)} (h1 : q.iter w' = .ok it)
    (h2 : Produces (fun s => DynIter.next w' s) it rows) (h3 : p.iter v' = .ok jt) (h4 : Produces (fun s => DynIter.next v' s) jt rows') :
    ∃ ss ss' : List (List AWorld.Seen), rows.mapM (fun r => (fs.zip r).mapM (fun x => w.readFetch x.1 x.2)) = .ok ss ∧
      rows'.mapM (fun r => (fs.zip r).mapM (fun x => v.readFetch x.1 x.2)) = .ok ss' ∧ ss.Perm ss' := by
  obtain ⟨a, ha, hb'⟩ := hs
  have hc : ∀ f ∈ fs, ∀ c, f.Of c → a.info c ≠ none := fun f hf c hc hn => ((ha.infoNone hw.sound.inv).1 hn) (hb f hf c hc)
  obtain ⟨it', rows2, es, ss, q1, q2, q3, q4, q5, q6⟩ := C57_dynamic_rows hw hlw ha hne (Or.inr hc) hq
  obtain ⟨jt', rows3, es', ss', r1, r2, r3, r4, r5, r6⟩ := C57_dynamic_rows hv hlv hb' hne (Or.inr hc) hp
  rw [h1] at q1; injection q1 with q1; subst q1
  rw [h3] at r1; injection r1 with r1; subst r1
  have := Produces.uniq' h2 q2; subst this
  have := Produces.uniq' h4 r2; subst this
  refine ⟨ss, ss', q3, r3, ?_⟩
  have hperm : es.Perm es' := (List.perm_ext_iff_of_nodup q4 r4).2 (fun e => (q5 e).trans (r5 e).symm)
  have := hperm.map (a.rowDyn fs)
  rw [q6, r6] at this
  have := this.filterMap id
  simpa using this

/-! ## C59 -/

/-- C59: calls that add, remove or write components of different entities can be made in either order: both orders give
the same results, also when one of the calls panics, and show the same afterwards. -/
theorem C59_commute {w w1 w2 : World} (hw : Reachable w) {e e' : EcsId} (hne : e ≠ e') {c c' : Call} (hc : Concerns e c) (hc' : Concerns e' c')
    (hr : w.Registered c) (hr' : w.Registered c') {x y x' y' : Except Fault Answer}
    (h1 : Talk w [(.call c, x), (.call c', y)] w1) (h2 : Talk w [(.call c', y'), (.call c, x')] w2) : x = x' ∧ y = y' ∧ SameView w1 w2 := by
  have ha := view_shows hw.sound.inv
  obtain ⟨q1, q2⟩ := h1.shows hw ha
  obtain ⟨r1, r2⟩ := h2.shows hw ha
  have ht : ∀ c : Call, w.Registered c → ∀ t, AWorld.typeOf c = some t → w.view.types t ≠ none := by
    intro c hr t ht
    rw [ha.types]
    cases c <;> cases ht
    · exact hr
    · exact hr
  obtain ⟨k1, k2, k3⟩ := AWorld.step_comm hne hc hc' (ht c hr) (ht c' hr')
  simp only [List.map_cons, List.map_nil, AWorld.answers, AWorld.ask, List.cons.injEq, and_true] at q1 q2 r1 r2
  refine ⟨?_, ?_, _, q2, ?_⟩
  · rw [← q1.1, ← r1.2, k1]
  · rw [← q1.2, ← r1.1, k2]
  · rw [k3]; exact r2

/-- C59: adding a component and removing it again changes nothing that can be seen, if the component was in use before.
(If it was not, it is from now on: see C37.) -/
theorem C59_add_remove {w w2 : World} (hw : Reachable w) {e c : EcsId} (he : w.Alive e) (hc : w.Alive c) (hu : w.Used c) {src : Bytes}
    (h : Talk w [(.call (.addDynamicWithData e c src), .ok .unit), (.call (.removeDynamic e c), .ok .unit)] w2) : SameView w w2 := by
  have ha := view_shows hw.sound.inv
  obtain ⟨q1, q2⟩ := h.shows hw ha
  simp only [List.map_cons, List.map_nil, AWorld.answers, AWorld.ask, List.cons.injEq, and_true, AWorld.step] at q1 q2
  have hres : ∀ {r : Except Fault Unit}, r.map (fun _ => Answer.unit) = .ok .unit → r = .ok () := by
    intro r hr; cases r with | ok u => rfl | error f => cases hr
  have := AWorld.add_remove (a := w.view) (e := e) (c := c) (src := src) (by rw [ha.alive]; exact he) (by rw [ha.alive]; exact hc)
    (pair_eq (hres q1.1)) (pair_eq (hres q1.2))
  rw [this, AWorld.use_used ((ha.used c).2 hu) ?_] at q2
  · exact ⟨_, ha, q2⟩
  · obtain ⟨a, a1, a2⟩ := hu
    obtain ⟨i, hi⟩ := Option.ne_none_iff_exists'.1 (hw.sound.inv.lock.used a a1 c a2)
    rw [ha.lockOf, ne_eq, lockOf_none hw.sound.inv, hi]
    simp

/-- C59: of two writes to the same component in a row the second one counts. -/
theorem C59_write_write {w w1 w2 : World} (hw : Reachable w) {e c : EcsId} {bs bs' : Bytes} {x y y' : Except Fault Answer}
    (h1 : Talk w [(.call (.write e c bs), x), (.call (.write e c bs'), y)] w1) (h2 : Talk w [(.call (.write e c bs'), y')] w2) :
    y = y' ∧ SameView w1 w2 := by
  have ha := view_shows hw.sound.inv
  obtain ⟨q1, q2⟩ := h1.shows hw ha
  obtain ⟨r1, r2⟩ := h2.shows hw ha
  simp only [List.map_cons, List.map_nil, AWorld.answers, AWorld.ask, List.cons.injEq, and_true, AWorld.step] at q1 q2 r1 r2
  rw [AWorld.write_write] at q1 q2
  exact ⟨q1.2.symm.trans r1, _, q2, r2⟩

/-! ## Examples -/

/-- A sufficient check for `Ask.Ok`. -/
def askOkB (w : World) : Ask → Bool
  | .call c => okB w c
  | .spawn kind acts => okB w (.spawn kind acts)
  | .look _ c n => decide (∀ m ∈ w.infoOf c, n = m.layout.size)
  | _ => true

theorem askOkB_ok {w : World} (h : Sound w) {q : Ask} (hq : askOkB w q = true) : q.Ok w := by
  cases q with
  | call c => exact okB_ok h hq
  | spawn kind acts => exact okB_ok h (c := .spawn kind acts) hq
  | look e c n =>
    intro m hm
    exact (of_decide_eq_true hq : ∀ m ∈ w.infoOf c, _) m (infoOf_iff.2 hm)
  | _ => trivial

instance (f : Fault) : Decidable (OutOfMemory f) := by unfold OutOfMemory; exact inferInstance

/-- Have a conversation. -/
def converse : List Ask → World → Option (List (Except Fault Answer) × World)
  | [], w => some ([], w)
  | q :: qs, w =>
    match askOkB w q, q.exec w with
    | true, .ok x w' =>
      if w'.NoFullSlot then (converse qs w').map (fun r => (.ok x :: r.1, r.2)) else none
    | true, .error f w' =>
      if ¬ OutOfMemory f ∧ f ≠ .deadlock ∧ w'.NoFullSlot then (converse qs w').map (fun r => (.error f :: r.1, r.2)) else none
    | _, _ => none

theorem converse_talk {qs : List Ask} {w : World} (hw : Reachable w) {xs : List (Except Fault Answer)} {w' : World} (h : converse qs w = some (xs, w')) :
    Talk w (qs.zip xs) w' ∧ qs.length = xs.length := by
  induction qs generalizing w xs w' with
  | nil => injection h with h; injection h with h1 h2; subst h1 h2; exact ⟨.done _, rfl⟩
  | cons q qs ih =>
    unfold converse at h
    split at h
    · rename_i x w1 h1 h2
      split at h
      · rename_i hn
        obtain ⟨⟨ys, w2⟩, h3, h4⟩ := Option.map_eq_some_iff.1 h
        injection h4 with h4 h5
        subst h4 h5
        have hq := askOkB_ok hw.sound h1
        obtain ⟨k1, k2⟩ := ih ((ask_reachable hw hq).1 _ _ h2 hn) h3
        exact ⟨.ok hq h2 hn k1, by simp [k2]⟩
      · cases h
    · rename_i f w1 h1 h2
      split at h
      · rename_i hn
        obtain ⟨⟨ys, w2⟩, h3, h4⟩ := Option.map_eq_some_iff.1 h
        injection h4 with h4 h5
        subst h4 h5
        have hq := askOkB_ok hw.sound h1
        obtain ⟨k1, k2⟩ := ih ((ask_reachable hw hq).2 _ _ h2 (fun hh => hn.1 (Or.inl hh)) hn.2.1 hn.2.2) h3
        exact ⟨.panic hq h2 hn.1 hn.2.1 hn.2.2 k1, by simp [k2]⟩
      · cases h
    · cases h

/-- The answers in a readable and comparable form. -/
def plain : Except Fault Answer → Fault ⊕ Answer
  | .ok x => .inr x
  | .error f => .inl f

theorem plain_inj {x y : Except Fault Answer} (h : plain x = plain y) : x = y := by
  cases x <;> cases y <;> cases h <;> rfl

theorem plains_inj {xs ys : List (Except Fault Answer)} (h : xs.map plain = ys.map plain) : xs = ys := by
  induction xs generalizing ys with
  | nil => cases ys with | nil => rfl | cons _ _ => cases h
  | cons x xs ih =>
    cases ys with
    | nil => cases h
    | cons y ys => injection h with h1 h2; rw [plain_inj h1, ih h2]

theorem converse_demo {w : World} (hw : Reachable w) {qs : List Ask} {xs : List (Fault ⊕ Answer)} (h : (converse qs w).map (fun r => r.1.map plain) = some xs) :
    ∃ tr w', Talk w tr w' ∧ tr.map Prod.fst = qs ∧ tr.map (fun p => plain p.2) = xs := by
  obtain ⟨⟨ys, w'⟩, h1, h2⟩ := Option.map_eq_some_iff.1 h
  obtain ⟨k1, k2⟩ := converse_talk hw h1
  refine ⟨_, w', k1, List.map_fst_zip (by omega), ?_⟩
  rw [← h2]
  simp only
  have : (qs.zip ys).map (fun p => plain p.2) = ((qs.zip ys).map Prod.snd).map plain := by rw [List.map_map]; rfl
  rw [this, List.map_snd_zip (by omega)]

theorem converse_get {w : World} (hw : Reachable w) {qs : List Ask} (h : (converse qs w).isSome = true) {xs : List (Except Fault Answer)}
    (hx : (converse qs w).map (fun r => r.1.map plain) = some (xs.map plain)) : Talk w (qs.zip xs) ((converse qs w).get h).2 := by
  obtain ⟨⟨ys, w'⟩, hy⟩ := Option.isSome_iff_exists.1 h
  have e : (converse qs w).get h = (ys, w') := by simp only [hy, Option.get_some]
  rw [hy] at hx
  injection hx with hx
  have := plains_inj hx
  subst this
  rw [e]
  exact (converse_talk hw hy).1

/-- C57: a conversation with a new world, with panics in between. -/
example : ∃ tr w, Talk World.new tr w ∧
    tr.map Prod.fst = [.register tA, .register tB, .spawn .plain [.with tA (val 4 1), .build], .call (.addComponent ⟨0, 2⟩ tB (val 8 2)),
      .call (.addComponent ⟨0, 2⟩ tB (val 8 2)), .look ⟨0, 2⟩ ⟨0, 1⟩ 8, .has tC ⟨0, 2⟩, .isAlive ⟨0, 2⟩, .despawn ⟨0, 2⟩, .isAlive ⟨0, 2⟩,
      .despawn ⟨0, 1⟩, .isAlive ⟨7, 9⟩] ∧
    tr.map (fun p => plain p.2) = [.inr (.id ⟨0, 0⟩), .inr (.id ⟨0, 1⟩), .inr (.id ⟨0, 2⟩), .inr .unit, .inl .alreadyPresent, .inr (.value (some (val 8 2))),
      .inr (.bool false), .inr (.bool true), .inr (.bool true), .inr (.bool false), .inl .despawnTodo, .inl .noGeneration] :=
  converse_demo .new (by decide +kernel)

/-- C57: a world with tables, and what it shows. -/
example : ∃ a, demo.Shows a ∧ a.cell (ent 6) (ent 2) = some (val 8 8) ∧ a.row [.ids, .ref tA] (ent 0) = some [.id (ent 0), .value (val 4 1)] ∧
    a.row [.ref tB] (ent 0) = none := by
  have hi := demo_reachable.sound.inv
  obtain ⟨a, ha, _⟩ := C57_view demo_reachable
  have h1 : a.cell (ent 0) (ent 1) = some (val 4 1) := (ha.cell _ _ _).2 (by decide +kernel)
  have h2 : a.cell (ent 0) (ent 2) = none := ha.cellNone.2 (by decide +kernel)
  have t1 : a.types tA = some (ent 1) := by rw [ha.types]; decide +kernel
  have t2 : a.types tB = some (ent 2) := by rw [ha.types]; decide +kernel
  have r0 : demo.Row (ent 0) := by decide +kernel
  refine ⟨a, ha, (ha.cell _ _ _).2 (by decide +kernel), ?_, ?_⟩
  · rw [row_eq hi ha r0]
    exact mapM_some rfl (mapM_some (by simp only [AWorld.seen, t1, Option.bind_some, h1, Option.map_some]) rfl)
  · rw [row_eq hi ha r0]
    have : a.seen (ent 0) (.ref tB) = none := by simp only [AWorld.seen, t2, Option.bind_some, h2, Option.map_none]
    rw [List.mapM_cons, this]; rfl

theorem trip_runs : (converse [.call (.addDynamicWithData (ent 1) (ent 2) (val 8 1)), .call (.removeDynamic (ent 1) (ent 2))] demo).isSome = true := by
  decide +kernel
/-- `demo` after a component was added to entity 1 and removed again. -/
def trip : World := ((converse [.call (.addDynamicWithData (ent 1) (ent 2) (val 8 1)), .call (.removeDynamic (ent 1) (ent 2))] demo).get trip_runs).2

theorem trip_talk : Talk demo [(.call (.addDynamicWithData (ent 1) (ent 2) (val 8 1)), .ok .unit), (.call (.removeDynamic (ent 1) (ent 2)), .ok .unit)] trip := by
  have h := converse_get demo_reachable trip_runs (xs := [.ok .unit, .ok .unit]) (by decide +kernel)
  unfold trip
  exact h

/-- C58 and C59: the two worlds have different tables (the second one has an additional table) but show the same. -/
example : Reachable demo ∧ Reachable trip ∧ SameView demo trip ∧ demo.archetypes.length < trip.archetypes.length :=
  ⟨demo_reachable, trip_talk.reachable demo_reachable, C59_add_remove demo_reachable (by decide +kernel) (by decide +kernel) (by decide +kernel) trip_talk,
    by decide +kernel⟩

/-- C58: questions that can be put to both worlds. -/
example : ∃ tr w, Talk demo tr w ∧ tr.map Prod.fst = [.call (.query [.mut tA, .ids] false), .look (ent 6) (ent 2) 8] ∧
    tr.map (fun p => plain p.2) = [.inr .unit, .inr (.value (some (val 8 8)))] :=
  converse_demo demo_reachable (by decide +kernel)

/-- C59: two calls in either order; the second one panics because the component is already there. -/
example : ent 3 ≠ ent 6 ∧ Concerns (ent 3) (.addDynamicWithData (ent 3) (ent 2) (val 8 1)) ∧ Concerns (ent 6) (.addComponent (ent 6) tB (val 8 1)) ∧
    demo.Registered (.addComponent (ent 6) tB (val 8 1)) ∧
    (∃ tr w, Talk demo tr w ∧ tr.map Prod.fst = [.call (.addDynamicWithData (ent 3) (ent 2) (val 8 1)), .call (.addComponent (ent 6) tB (val 8 1))] ∧
      tr.map (fun p => plain p.2) = [.inr .unit, .inl .alreadyPresent]) ∧
    (∃ tr w, Talk demo tr w ∧ tr.map Prod.fst = [.call (.addComponent (ent 6) tB (val 8 1)), .call (.addDynamicWithData (ent 3) (ent 2) (val 8 1))] ∧
      tr.map (fun p => plain p.2) = [.inl .alreadyPresent, .inr .unit]) :=
  ⟨by decide, rfl, rfl, (by show demo.typeMap tB ≠ none; decide +kernel), converse_demo demo_reachable (by decide +kernel), converse_demo demo_reachable (by decide +kernel)⟩

/-! ### The theorems at work -/

example := C57_view demo_reachable
example {a : AWorld} (h : demo.Shows a) := C57_talk demo_reachable h trip_talk
example {a : AWorld} (h : demo.Shows a) := C57_query_rows demo_reachable demo_small h (ps := [.ref tB]) (by decide) busy_made
example := C59_add_remove demo_reachable (by decide +kernel) (by decide +kernel) (by decide +kernel) trip_talk
example {a : AWorld} (h : demo.Shows a) := C57_query_get demo_reachable h (ps := [.ref tB]) busy_made (e := ent 6) (by rw [h.ents]; decide +kernel)
theorem demo_trip : SameView demo trip := C59_add_remove demo_reachable (by decide +kernel) (by decide +kernel) (by decide +kernel) trip_talk
theorem trip_reachable : Reachable trip := trip_talk.reachable demo_reachable

/-- The same conversation with the two worlds. -/
example : ∃ tr w v, Talk demo tr w ∧ Talk trip tr v ∧ tr.map Prod.fst = [.call (.query [.mut tA, .ids] false), .look (ent 6) (ent 2) 8] ∧ SameView w v := by
  obtain ⟨tr, w, h1, h2, _⟩ := converse_demo demo_reachable
    (by decide +kernel : (converse [.call (.query [.mut tA, .ids] false), .look (ent 6) (ent 2) 8] demo).map (fun r => r.1.map plain) =
      some [.inr .unit, .inr (.value (some (val 8 8)))])
  obtain ⟨tr', v, h3, h4, _⟩ := converse_demo trip_reachable
    (by decide +kernel : (converse [.call (.query [.mut tA, .ids] false), .look (ent 6) (ent 2) 8] trip).map (fun r => r.1.map plain) =
      some [.inr .unit, .inr (.value (some (val 8 8)))])
  obtain ⟨rfl, h5⟩ := C58_same_answers demo_reachable trip_reachable demo_trip h1 h3 (h2.trans h4.symm)
  exact ⟨tr, w, v, h1, h3, h2, h5⟩

/-- The two calls of the last example before, in either order. -/
example : ∃ w1 w2, Talk demo [(.call (.addDynamicWithData (ent 3) (ent 2) (val 8 1)), .ok .unit), (.call (.addComponent (ent 6) tB (val 8 1)), .error .alreadyPresent)] w1 ∧
    Talk demo [(.call (.addComponent (ent 6) tB (val 8 1)), .error .alreadyPresent), (.call (.addDynamicWithData (ent 3) (ent 2) (val 8 1)), .ok .unit)] w2 ∧
    SameView w1 w2 := by
  have s1 : (converse [.call (.addDynamicWithData (ent 3) (ent 2) (val 8 1)), .call (.addComponent (ent 6) tB (val 8 1))] demo).isSome = true := by decide +kernel
  have s2 : (converse [.call (.addComponent (ent 6) tB (val 8 1)), .call (.addDynamicWithData (ent 3) (ent 2) (val 8 1))] demo).isSome = true := by decide +kernel
  have h1 := converse_get demo_reachable s1 (xs := [.ok .unit, .error .alreadyPresent]) (by decide +kernel)
  have h2 := converse_get demo_reachable s2 (xs := [.error .alreadyPresent, .ok .unit]) (by decide +kernel)
  generalize ((converse _ demo).get s1).2 = w1 at h1
  generalize ((converse _ demo).get s2).2 = w2 at h2
  exact ⟨w1, w2, h1, h2, (C59_commute demo_reachable (e := ent 3) (e' := ent 6) (by decide) (c := .addDynamicWithData (ent 3) (ent 2) (val 8 1)) rfl
    (c' := .addComponent (ent 6) tB (val 8 1)) rfl trivial (by show demo.typeMap tB ≠ none; decide +kernel) h1 h2).2.2⟩

theorem trip_small : trip.archetypes.length < 2 ^ 32 := by decide +kernel

/-- The same query in the two worlds, and its rows. -/
def idsA : StaticQuery := ⟨[.ids, .ref tA], [.none, .read 0], some [.ecsId, .immut (ent 1)]⟩
theorem idsA_demo : query [.ids, .ref tA] demo = .ok idsA (after (query [.ids, .ref tA] demo)) := eq_of_endsOk (by decide +kernel)
theorem idsA_trip : query [.ids, .ref tA] trip = .ok idsA (after (query [.ids, .ref tA] trip)) := eq_of_endsOk (by decide +kernel)
example {it jt : StaticIter} {rows rows' : List (List Item)} := C58_same_rows (it := it) (jt := jt) (rows := rows) (rows' := rows') demo_reachable trip_reachable demo_trip demo_small trip_small (by decide) idsA_demo idsA_trip
def idsDyn : DynQuery := ⟨[.none, .read 0], [.ecsId, .immut (ent 1)], false⟩
theorem idsDyn_demo : queryDynamic [.ecsId, .immut (ent 1)] demo = .ok idsDyn (after (queryDynamic [.ecsId, .immut (ent 1)] demo)) := eq_of_endsOk (by decide +kernel)
theorem idsDyn_trip : queryDynamic [.ecsId, .immut (ent 1)] trip = .ok idsDyn (after (queryDynamic [.ecsId, .immut (ent 1)] trip)) := eq_of_endsOk (by decide +kernel)
theorem idsDyn_rows : ∀ f ∈ [Fetch.ecsId, .immut (ent 1)], ∀ c, f.Of c → demo.Row c := by
  have h : demo.Row (ent 1) := by decide +kernel
  intro f hf c hc
  simp only [List.mem_cons, List.not_mem_nil, or_false] at hf
  rcases hf with rfl | rfl
  · rcases hc with hc | hc <;> cases hc
  · rcases hc with hc | hc <;> cases hc
    exact h
example {it jt : DynIter} {rows rows' : List (List Ptr)} := C58_same_dynamic_rows (it := it) (jt := jt) (rows := rows) (rows' := rows') demo_reachable trip_reachable demo_trip demo_small trip_small (by decide) idsDyn_rows idsDyn_demo idsDyn_trip
example {a : AWorld} (h : demo.Shows a) := C57_dynamic_rows demo_reachable demo_small h (by decide) (.inl demo_calm) idsDyn_demo

end Ellecs.WorldSpec
