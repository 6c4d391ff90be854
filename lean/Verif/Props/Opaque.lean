import Verif.Proofs.OpaqueOrder
import Verif.Props.Order
import Verif.Props.Fate
/-!
# C77: data is opaque to the world

Two programs ask the same questions, but with different bytes, types, alignments, drop functions or capacities in them.
The world treats them alike: the answers, the order of iteration, the drop calls and the panics correspond.
-/
namespace Ellecs.WorldSpec
open World Demo

/-- C77: the answers to corresponding questions correspond, and the drop calls made along the way. -/
theorem C77_talk {R : Recoding} {w v w' v' : World} (hw : Reachable w) (hv : Reachable v) (h : R.Worlds w v) {tr tr' : List (Ask × Except Fault Answer)}
    (t1 : Talk w tr w') (t2 : Talk v tr' v') (hq : Pairs R.Asks (tr.map Prod.fst) (tr'.map Prod.fst)) :
    Pairs R.Answers (tr.map Prod.snd) (tr'.map Prod.snd) ∧ R.Worlds w' v' ∧
    ∃ x y, w'.log = w.log ++ x ∧ v'.log = v.log ++ y ∧ Pairs R.Evs x y := by
  obtain ⟨a, b, ha, hb, hm⟩ := h
  obtain ⟨p1, p2⟩ := C57_talk hw ha t1
  obtain ⟨q1, q2⟩ := C57_talk hv hb t2
  obtain ⟨r1, r2⟩ := both_answers hq hm
  obtain ⟨x, l1, f1⟩ := C75_talk hw ha t1
  obtain ⟨y, l2, f2⟩ := C75_talk hv hb t2
  rw [p1, q1] at r1
  exact ⟨r1, ⟨_, _, p2, q2, r2⟩, x, y, l1, l2, maps_fates hq hm f1 f2⟩

/-- C77: the entities are in the same order. -/
theorem C77_order {R : Recoding} {w v w' v' : World} (hw : Reachable w) (hv : Reachable v) (h : R.Worlds w v) {tr tr' : List (Ask × Except Fault Answer)}
    (t1 : Talk w tr w') (t2 : Talk v tr' v') (hq : Pairs R.Asks (tr.map Prod.fst) (tr'.map Prod.fst)) (h1 : w'.archetypes.length < 2 ^ 32)
    (h2 : v'.archetypes.length < 2 ^ 32) (hL : lines w = lines v) : lines w' = lines v' := by
  obtain ⟨a, b, ha, hb, hm⟩ := h
  exact talk_lines t1 ⟨hw, hv, ha, hb, hm⟩ t2 hq h1 h2 hL

theorem new_worlds (R : Recoding) : R.Worlds World.new World.new :=
  ⟨AWorld.new, AWorld.new, C57_new, C57_new, ⟨rfl, fun _ => rfl, fun _ => .none, fun _ _ => .none, rfl, rfl⟩⟩

/-- C77 for two programs that start with a new world. -/
theorem C77_program {R : Recoding} {w v : World} {tr tr' : List (Ask × Except Fault Answer)} (t1 : Talk World.new tr w) (t2 : Talk World.new tr' v)
    (hq : Pairs R.Asks (tr.map Prod.fst) (tr'.map Prod.fst)) :
    Pairs R.Answers (tr.map Prod.snd) (tr'.map Prod.snd) ∧ R.Worlds w v ∧ Pairs R.Evs w.log v.log ∧
    (w.archetypes.length < 2 ^ 32 → v.archetypes.length < 2 ^ 32 → lines w = lines v) := by
  obtain ⟨h1, h2, x, y, h3, h4, h5⟩ := C77_talk .new .new (new_worlds R) t1 t2 hq
  refine ⟨h1, h2, ?_, fun l1 l2 => C77_order .new .new (new_worlds R) t1 t2 hq l1 l2 rfl⟩
  rw [h3, h4]
  exact h5

/-- The two programs ask corresponding questions if what they were told so far corresponds. -/
def AskAlike (R : Recoding) (p p' : Asker) : Prop :=
  ∀ past past', Pairs (fun x y => R.Asks x.1 y.1 ∧ R.Answers x.2 y.2) past past' → Option.Rel R.Asks (p past) (p' past')

theorem pairs_snoc {α β : Type} {S : α → β → Prop} {as : List α} {bs : List β} (h : Pairs S as bs) {a : α} {b : β} (hs : S a b) : Pairs S (as ++ [a]) (bs ++ [b]) := by
  induction h with
  | nil => exact .cons hs .nil
  | cons h1 _ ih => exact .cons h1 ih

/-- C77: two programs that treat data alike, whose next question may depend on the answers so far, have corresponding
conversations. -/
theorem C77_askers {R : Recoding} {p p' : Asker} (hp : AskAlike R p p') {w v w' v' : World} (hw : Reachable w) (hv : Reachable v) (h : R.Worlds w v)
    {past past' : List (Ask × Except Fault Answer)} (hpast : Pairs (fun x y => R.Asks x.1 y.1 ∧ R.Answers x.2 y.2) past past')
    {tr tr' : List (Ask × Except Fault Answer)} (t1 : Talk w tr w') (t2 : Talk v tr' v') (l1 : p.Leads past tr) (l2 : p'.Leads past' tr') (hlen : tr.length = tr'.length) :
    Pairs (fun x y => R.Asks x.1 y.1 ∧ R.Answers x.2 y.2) tr tr' ∧ R.Worlds w' v' := by
  obtain ⟨a, b, ha, hb, hm⟩ := h
  induction t1 generalizing v v' tr' past past' a b with
  | done w =>
    cases t2 with
    | done => exact ⟨.nil, a, b, ha, hb, hm⟩
    | ok _ _ _ _ => cases hlen
    | panic _ _ _ _ _ _ => cases hlen
  | @ok w w1 w2 q x rest ok1 e1 n1 r1 ih =>
    obtain ⟨s1, s2⟩ := (sim_ask hw.sound.inv hw.sound.nowrap.ready hw.sound.idle ha ok1).ok e1
    cases t2 with
    | done => cases hlen
    | @ok _ v1 _ q' x' rest' ok2 e2 n2 r2 =>
      obtain ⟨u1, u2⟩ := (sim_ask hv.sound.inv hv.sound.nowrap.ready hv.sound.idle hb ok2).ok e2
      have hq : R.Asks q q' := by
        have := hp past past' hpast
        rw [l1.1, l2.1] at this
        cases this; assumption
      have hans := both_ask hm hq
      rw [s1, u1] at hans
      obtain ⟨i1, i2⟩ := ih ((ask_reachable hw ok1).1 _ _ e1 n1) ((ask_reachable hv ok2).1 _ _ e2 n2)
        (pairs_snoc hpast (a := (q, .ok x)) (b := (q', .ok x')) ⟨hq, hans.1⟩) r2 l1.2 l2.2 (Nat.succ.inj hlen) _ _ s2 u2 hans.2
      exact ⟨.cons ⟨hq, hans.1⟩ i1, i2⟩
    | @panic _ v1 _ q' f' rest' ok2 e2 m2 d2 n2 r2 =>
      obtain ⟨u1, u2⟩ := ((sim_ask hv.sound.inv hv.sound.nowrap.ready hv.sound.idle hb ok2).error e2).resolve_left m2
      have hq : R.Asks q q' := by
        have := hp past past' hpast
        rw [l1.1, l2.1] at this
        cases this; assumption
      have hans := (both_ask hm hq).1
      rw [s1, u1] at hans
      cases hans
  | @panic w w1 w2 q f rest ok1 e1 m1 d1 n1 r1 ih =>
    obtain ⟨s1, s2⟩ := ((sim_ask hw.sound.inv hw.sound.nowrap.ready hw.sound.idle ha ok1).error e1).resolve_left m1
    cases t2 with
    | done => cases hlen
    | @ok _ v1 _ q' x' rest' ok2 e2 n2 r2 =>
      obtain ⟨u1, u2⟩ := (sim_ask hv.sound.inv hv.sound.nowrap.ready hv.sound.idle hb ok2).ok e2
      have hq : R.Asks q q' := by
        have := hp past past' hpast
        rw [l1.1, l2.1] at this
        cases this; assumption
      have hans := (both_ask hm hq).1
      rw [s1, u1] at hans
      cases hans
    | @panic _ v1 _ q' f' rest' ok2 e2 m2 d2 n2 r2 =>
      obtain ⟨u1, u2⟩ := ((sim_ask hv.sound.inv hv.sound.nowrap.ready hv.sound.idle hb ok2).error e2).resolve_left m2
      have hq : R.Asks q q' := by
        have := hp past past' hpast
        rw [l1.1, l2.1] at this
        cases this; assumption
      have hans := both_ask hm hq
      rw [s1, u1] at hans
      obtain ⟨i1, i2⟩ := ih ((ask_reachable hw ok1).2 _ _ e1 (fun hh => m1 (Or.inl hh)) d1 n1) ((ask_reachable hv ok2).2 _ _ e2 (fun hh => m2 (Or.inl hh)) d2 n2)
        (pairs_snoc hpast (a := (q, .error f)) (b := (q', .error f')) ⟨hq, hans.1⟩) r2 l1.2 l2.2 (Nat.succ.inj hlen) _ _ s2 u2 hans.2
      exact ⟨.cons ⟨hq, hans.1⟩ i1, i2⟩

/-! ## queries -/

theorem pairs_left {α β : Type} {S : α → β → Prop} {as : List α} {bs : List β} (h : Pairs S as bs) {a : α} (ha : a ∈ as) : ∃ b ∈ bs, S a b := by
  induction h with
  | nil => cases ha
  | cons h1 _ ih =>
    rcases List.mem_cons.1 ha with rfl | ha
    · exact ⟨_, List.mem_cons_self, h1⟩
    · obtain ⟨b, hb, hs⟩ := ih ha; exact ⟨b, List.mem_cons_of_mem _ hb, hs⟩

theorem pairs_right {α β : Type} {S : α → β → Prop} {as : List α} {bs : List β} (h : Pairs S as bs) {b : β} (hb : b ∈ bs) : ∃ a ∈ as, S a b := by
  induction h with
  | nil => cases hb
  | cons h1 _ ih =>
    rcases List.mem_cons.1 hb with rfl | hb
    · exact ⟨_, List.mem_cons_self, h1⟩
    · obtain ⟨a, ha, hs⟩ := ih hb; exact ⟨a, List.mem_cons_of_mem _ ha, hs⟩

theorem params_of {R : Recoding} {p p' : Param} (h : R.Params p p') : (∀ t, p.Of t → ∃ u, p'.Of u ∧ R.type t u) ∧ ∀ u, p'.Of u → ∃ t, p.Of t ∧ R.type t u := by
  unfold Param.Of
  cases h with
  | ids => exact ⟨fun _ h => by simp at h, fun _ h => by simp at h⟩
  | «mut» ht =>
    refine ⟨fun t h => ?_, fun t h => ?_⟩
    all_goals
      rcases h with h | h <;> cases h
      exact ⟨_, Or.inl rfl, ht⟩
  | ref ht =>
    refine ⟨fun t h => ?_, fun t h => ?_⟩
    all_goals
      rcases h with h | h <;> cases h
      exact ⟨_, Or.inr rfl, ht⟩

theorem twins_wants {R : Recoding} {w v : World} {a b : AWorld} (h : Twins R w v a b) {ps ps' : List Param} (hp : Pairs R.Params ps ps') : WantsTypes w ps = WantsTypes v ps' := by
  funext s
  refine propext ⟨fun hw p' hp' u hu => ?_, fun hw p hp' t ht => ?_⟩
  · obtain ⟨p, hpm, hpp⟩ := pairs_right hp hp'
    obtain ⟨t, h1, h2⟩ := (params_of hpp).2 u hu
    rw [← h.types h2]
    exact hw p hpm t h1
  · obtain ⟨p', hpm, hpp⟩ := pairs_left hp hp'
    obtain ⟨u, h1, h2⟩ := (params_of hpp).1 t ht
    rw [h.types h2]
    exact hw p' hpm u h1

theorem maps_seen {R : Recoding} {a b : AWorld} (h : R.Maps a b) (e : EcsId) {p p' : Param} (hp : R.Params p p') : Option.Rel R.Seens (a.seen e p) (b.seen e p') := by
  have key : ∀ {t u : Ty}, R.type t u → Option.Rel R.Seens (((a.types t).bind (a.cell e)).map .value) (((b.types u).bind (b.cell e)).map .value) := by
    intro t u ht
    rw [h.types ht]
    cases b.types u with
    | none => exact .none
    | some c =>
      simp only [Option.bind_some]
      have := h.cell e c
      revert this
      cases a.cell e c <;> cases b.cell e c <;> intro h1 <;> cases h1
      · exact .none
      · rename_i hv; exact .some (.value hv)
  cases hp with
  | ids => exact .some (.id e)
  | «mut» ht => exact key ht
  | ref ht => exact key ht

theorem maps_seenDyn {R : Recoding} {a b : AWorld} (h : R.Maps a b) (e : EcsId) (f : Fetch) : Option.Rel R.Seens (a.seenDyn e f) (b.seenDyn e f) := by
  have key : ∀ c, Option.Rel R.Seens ((a.cell e c).map .value) ((b.cell e c).map .value) := by
    intro c
    have := h.cell e c
    revert this
    cases a.cell e c <;> cases b.cell e c <;> intro h1 <;> cases h1
    · exact .none
    · rename_i hv; exact .some (.value hv)
  cases f with
  | ecsId => exact .some (.id e)
  | «mut» c => exact key c
  | immut c => exact key c

theorem pairs_mapM_some {α β γ δ : Type} {S : α → β → Prop} {T : γ → δ → Prop} {f : α → Option γ} {g : β → Option δ} (hfg : ∀ x y, S x y → Option.Rel T (f x) (g y))
    {as : List α} {bs : List β} (h : Pairs S as bs) : ∀ {cs : List γ} {ds : List δ}, as.mapM f = some cs → bs.mapM g = some ds → Pairs T cs ds := by
  induction h with
  | nil => intro cs ds h1 h2; cases h1; cases h2; exact .nil
  | @cons x y as bs hs _ ih =>
    intro cs ds h1 h2
    have hr := hfg x y hs
    rw [List.mapM_cons] at h1 h2
    cases hf : f x with
    | none => rw [hf] at h1; cases h1
    | some c =>
      cases hg : g y with
      | none => rw [hg] at h2; cases h2
      | some d =>
        rw [hf] at h1 hr
        rw [hg] at h2 hr
        cases hm : as.mapM f with
        | none => rw [hm] at h1; cases h1
        | some cs' =>
          cases hm' : bs.mapM g with
          | none => rw [hm'] at h2; cases h2
          | some ds' =>
            rw [hm] at h1
            rw [hm'] at h2
            cases h1; cases h2; cases hr
            rename_i ht
            exact .cons ht (ih hm hm')

/-- Two worlds were asked for the rows of the same entities. -/
theorem rows_alike {α β γ δ : Type} {T : γ → δ → Prop} {P : EcsId → α → Prop} {Q : EcsId → β → Prop} {f : α → Except Fault γ} {g : β → Except Fault δ} {es : List EcsId}
    {rows : List α} {rows' : List β} (h1 : Pairs P es rows) (h2 : Pairs Q es rows')
    (hfg : ∀ e x y, P e x → Q e y → ∃ s t, f x = .ok s ∧ g y = .ok t ∧ T s t) : ∃ ss ss', rows.mapM f = .ok ss ∧ rows'.mapM g = .ok ss' ∧ Pairs T ss ss' := by
  induction h1 generalizing rows' with
  | nil => cases h2; exact ⟨[], [], rfl, rfl, .nil⟩
  | cons hx _ ih =>
    cases h2 with
    | cons hy h2 =>
      obtain ⟨s, t, f1, g1, ht⟩ := hfg _ _ _ hx hy
      obtain ⟨ss, ss', f2, g2, hts⟩ := ih h2
      refine ⟨s :: ss, t :: ss', ?_, ?_, .cons ht hts⟩
      · rw [List.mapM_cons, f1, f2]; rfl
      · rw [List.mapM_cons, g1, g2]; rfl

/-- C77: corresponding static queries produce corresponding rows, in the same order. -/
theorem C77_rows {R : Recoding} {w v w' v' : World} (hw : Reachable w) (hv : Reachable v) (h : R.Worlds w v) (l1 : w.archetypes.length < 2 ^ 32)
    (l2 : v.archetypes.length < 2 ^ 32) (hL : lines w = lines v) {ps ps' : List Param} (hp : Pairs R.Params ps ps') (hne : ps ≠ []) {q q' : StaticQuery}
    (h1 : query ps w = .ok q w') (h2 : query ps' v = .ok q' v') :
    ∃ (it it' : StaticIter) (rows rows' : List (List Item)) (ss ss' : List (List AWorld.Seen)),
      q.iter w' = .ok it ∧ Produces (fun s => StaticIter.next w' s) it rows ∧ rows.mapM (fun r => r.mapM w.readItem) = .ok ss ∧
      q'.iter v' = .ok it' ∧ Produces (fun s => StaticIter.next v' s) it' rows' ∧ rows'.mapM (fun r => r.mapM v.readItem) = .ok ss' ∧
      Pairs (Pairs R.Seens) ss ss' := by
  obtain ⟨a, b, ha, hb, hm⟩ := h
  have hne' : ps' ≠ [] := by rintro rfl; cases hp; exact hne rfl
  obtain ⟨it, rows, i1, i2, i3⟩ := C72_static_order hw (sameButLocks_refl w) l1 hne h1
  obtain ⟨it', rows', j1, j2, j3⟩ := C72_static_order hv (sameButLocks_refl v) l2 hne' h2
  rw [← hL, ← twins_wants ⟨hw, hv, ha, hb, hm⟩ hp] at j3
  obtain ⟨ss, ss', k1, k2, k3⟩ := rows_alike (T := Pairs R.Seens) (f := fun r => r.mapM w.readItem) (g := fun r => r.mapM v.readItem) i3 j3 (by
    intro e x y hx hy
    obtain ⟨s, x1, x2⟩ := readRow_eq hw.sound.inv ha hx
    obtain ⟨t, y1, y2⟩ := readRow_eq hv.sound.inv hb hy
    exact ⟨s, t, x1, y1, pairs_mapM_some (f := a.seen e) (g := b.seen e) (fun _ _ h => maps_seen hm e h) hp x2 y2⟩)
  exact ⟨it, it', rows, rows', ss, ss', i1, i2, k1, j1, j2, k2, k3⟩

/-- C77: the same for dynamic queries. -/
theorem C77_rows_dynamic {R : Recoding} {w v w' v' : World} (hw : Reachable w) (hv : Reachable v) (h : R.Worlds w v) (l1 : w.archetypes.length < 2 ^ 32)
    (l2 : v.archetypes.length < 2 ^ 32) (hL : lines w = lines v) {fs : List Fetch} (hne : fs ≠ []) (hb : ∀ f ∈ fs, ∀ c, f.Of c → w.Row c) {q q' : DynQuery}
    (h1 : queryDynamic fs w = .ok q w') (h2 : queryDynamic fs v = .ok q' v') :
    ∃ (it it' : DynIter) (rows rows' : List (List Ptr)) (ss ss' : List (List AWorld.Seen)),
      q.iter w' = .ok it ∧ Produces (fun s => DynIter.next w' s) it rows ∧ rows.mapM (fun r => (fs.zip r).mapM (fun x => w.readFetch x.1 x.2)) = .ok ss ∧
      q'.iter v' = .ok it' ∧ Produces (fun s => DynIter.next v' s) it' rows' ∧ rows'.mapM (fun r => (fs.zip r).mapM (fun x => v.readFetch x.1 x.2)) = .ok ss' ∧
      Pairs (Pairs R.Seens) ss ss' := by
  obtain ⟨a, b, ha, hb', hm⟩ := h
  have tw : Twins R w v a b := ⟨hw, hv, ha, hb', hm⟩
  obtain ⟨⟨it, rows, i1, i2, i3⟩, _⟩ := C72_dynamic_order hw (sameButLocks_refl w) l1 hne (Or.inr hb) h1
  obtain ⟨⟨it', rows', j1, j2, j3⟩, _⟩ := C72_dynamic_order hv (sameButLocks_refl v) l2 hne (Or.inr fun f hf c hc => (tw.row c).1 (hb f hf c hc)) h2
  rw [← hL] at j3
  obtain ⟨ss, ss', k1, k2, k3⟩ := rows_alike (T := Pairs R.Seens) (f := fun r => (fs.zip r).mapM (fun x => w.readFetch x.1 x.2))
    (g := fun r => (fs.zip r).mapM (fun x => v.readFetch x.1 x.2)) i3 j3 (by
    intro e x y hx hy
    obtain ⟨s, x1, x2⟩ := readDyn_eq hw.sound.inv ha hx
    obtain ⟨t, y1, y2⟩ := readDyn_eq hv.sound.inv hb' hy
    have hrefl : ∀ l : List Fetch, Pairs Eq l l := by
      intro l
      induction l with
      | nil => exact .nil
      | cons x l ih => exact .cons rfl ih
    exact ⟨s, t, x1, y1, pairs_mapM_some (fun x y (hxy : x = y) => by subst hxy; exact maps_seenDyn hm e x) (hrefl fs) x2 y2⟩)
  exact ⟨it, it', rows, rows', ss, ss', i1, i2, k1, j1, j2, k2, k3⟩

/-- C77: when the worlds are dropped, corresponding values are dropped, in the same order. -/
theorem C77_end {R : Recoding} {w v : World} (hw : Reachable w) (hv : Reachable v) (h : R.Worlds w v) (hL : lines w = lines v) :
    ∃ x y, dropWorld w = .ok x ∧ dropWorld v = .ok y ∧ Pairs R.Evs x y := by
  obtain ⟨a, b, ha, hb, hm⟩ := h
  obtain ⟨x, x1, x2⟩ := C75_world hw ha
  obtain ⟨y, y1, y2⟩ := C75_world hv hb
  rw [← hL] at y2
  exact ⟨x, y, x1, y1, maps_burial hm x2 y2⟩

/-! ## a case -/

/-- A type as large as `A`, with another alignment. -/
def tA' : Ty := ⟨7, ⟨4, 0⟩⟩

/-- `A` corresponds to the other type, all bytes to all others. -/
def toOther : Recoding where
  byte := fun _ _ => True
  type := fun t u => t = tA ∧ u = tA'
  fn := fun f g => f = .generic tA ∧ g = .generic tA'
  same := by rintro _ _ _ _ ⟨rfl, rfl⟩ ⟨rfl, rfl⟩; simp
  size := by rintro _ _ ⟨rfl, rfl⟩; rfl
  generic := by rintro _ _ ⟨rfl, rfl⟩; exact ⟨rfl, rfl⟩

theorem toOther_vals (n : Nat) (k l : BitVec 8) : toOther.Vals (val n k) (val n l) := by
  unfold val
  induction n with
  | zero => exact .nil
  | succ n ih => exact .cons trivial ih

/-- Spawns two entities, adds a component to one that has it already (which panics), then despawns the other. -/
def errand (kind : SpawnKind) (t : Ty) (k l : BitVec 8) : List Ask :=
  [.spawn kind [.with t (val 4 k), .build], .spawn .plain [.with t (val 4 l), .build], .call (.addComponent (ent 2) t (val 4 k)), .despawn (ent 0), .look (ent 2) (ent 1) 4]

theorem errand_alike (k l k' l' : BitVec 8) : Pairs toOther.Asks (errand .plain tA k l) (errand (.capacity 16) tA' k' l') :=
  .cons (.spawn ⟨rfl, .none⟩ (.cons (.with ⟨rfl, rfl⟩ (toOther_vals 4 _ _)) (.cons .build .nil)))
    (.cons (.spawn ⟨rfl, .none⟩ (.cons (.with ⟨rfl, rfl⟩ (toOther_vals 4 _ _)) (.cons .build .nil)))
      (.cons (.call (.addComponent _ ⟨rfl, rfl⟩ (toOther_vals 4 _ _))) (.cons (.despawn _) (.cons (.look _ _ _) .nil))))

/-- What is left of a conversation with a new world. -/
def leftover (qs : List Ask) : Option (List (Fault ⊕ Answer) × List DropEv × List (List EcsId × List EcsId)) :=
  (converse qs World.new).map (fun r => (r.1.map plain, r.2.log, roster r.2))

/-- C77: the two conversations take place, and this is what they leave: the same ids, panics and tables; the values differ. -/
example : Pairs toOther.Asks (errand .plain tA 1 2) (errand (.capacity 16) tA' 3 4) ∧
    leftover (errand .plain tA 1 2) = some ([.inr (.id (ent 0)), .inr (.id (ent 2)), .inl .alreadyPresent, .inr (.bool true), .inr (.value (some (val 4 2)))],
      [⟨.generic tA, val 4 1⟩], [([], [ent 1]), ([ent 1], [ent 2])]) ∧
    leftover (errand (.capacity 16) tA' 3 4) = some ([.inr (.id (ent 0)), .inr (.id (ent 2)), .inl .alreadyPresent, .inr (.bool true), .inr (.value (some (val 4 4)))],
      [⟨.generic tA', val 4 3⟩], [([], [ent 1]), ([ent 1], [ent 2])]) := by
  refine ⟨errand_alike 1 2 3 4, ?_, ?_⟩ <;> decide +kernel

/-- Spawns an entity, and despawns the one it was told. -/
def brief (t : Ty) (k : BitVec 8) : Asker
  | [] => some (.spawn .plain [.with t (val 4 k), .build])
  | [(_, .ok (.id e))] => some (.despawn e)
  | _ => none

/-- C77: two programs that depend on the answers. -/
theorem brief_alike (k l : BitVec 8) : AskAlike toOther (brief tA k) (brief tA' l) := by
  intro past past' h
  cases h with
  | nil => exact .some (.spawn ⟨rfl, .none⟩ (.cons (.with ⟨rfl, rfl⟩ (toOther_vals 4 _ _)) (.cons .build .nil)))
  | @cons x y xs ys hx hxs =>
    obtain ⟨q, x⟩ := x
    obtain ⟨q', y⟩ := y
    obtain ⟨_, hx⟩ := hx
    simp only at hx
    cases hxs with
    | nil =>
      cases hx with
      | id e => exact .some (.despawn e)
      | _ => exact .none
    | cons _ _ =>
      have : ∀ (t : Ty) (k : BitVec 8) a b l, brief t k (a :: b :: l) = none := by
        intro t k a b l
        obtain ⟨a1, a2⟩ := a
        rcases a2 with _ | (_ | _ | _ | _) <;> rfl
      rw [this, this]
      exact .none

example : ∃ tr tr' w v, Talk World.new tr w ∧ Talk World.new tr' v ∧ (brief tA 1).Leads [] tr ∧ (brief tA' 2).Leads [] tr' ∧ tr.length = 2 ∧ tr'.length = 2 ∧
    Pairs (fun x y => toOther.Asks x.1 y.1 ∧ toOther.Answers x.2 y.2) tr tr' := by
  have hx : ∀ (t : Ty) (k : BitVec 8), (converse [.spawn .plain [.with t (val 4 k), .build], .despawn (ent 0)] World.new).map (fun r => r.1.map plain) =
      some ([.ok (.id (ent 0)), .ok (.bool true)].map plain) → ∃ w, Talk World.new [(.spawn .plain [.with t (val 4 k), .build], .ok (.id (ent 0))), (.despawn (ent 0), .ok (.bool true))] w := by
    intro t k h
    have hs : (converse [.spawn .plain [.with t (val 4 k), .build], .despawn (ent 0)] World.new).isSome = true := by
      obtain ⟨y, hy, _⟩ := Option.map_eq_some_iff.1 h
      rw [hy]; rfl
    exact ⟨_, converse_get .new hs h⟩
  obtain ⟨w, t1⟩ := hx tA 1 (by decide +kernel)
  obtain ⟨v, t2⟩ := hx tA' 2 (by decide +kernel)
  have l1 : (brief tA 1).Leads [] [(.spawn .plain [.with tA (val 4 1), .build], .ok (.id (ent 0))), (.despawn (ent 0), .ok (.bool true))] := ⟨rfl, rfl, trivial⟩
  have l2 : (brief tA' 2).Leads [] [(.spawn .plain [.with tA' (val 4 2), .build], .ok (.id (ent 0))), (.despawn (ent 0), .ok (.bool true))] := ⟨rfl, rfl, trivial⟩
  exact ⟨_, _, w, v, t1, t2, l1, l2, rfl, rfl, (C77_askers (brief_alike 1 2) .new .new (new_worlds _) .nil t1 t2 l1 l2 rfl).1⟩

/-- The two errands, and what corresponds in them. -/
example : ∃ tr tr' w v, Talk World.new tr w ∧ Talk World.new tr' v ∧ tr.map Prod.fst = errand .plain tA 1 2 ∧ tr'.map Prod.fst = errand (.capacity 16) tA' 3 4 ∧
    Pairs toOther.Answers (tr.map Prod.snd) (tr'.map Prod.snd) ∧ toOther.Worlds w v ∧ Pairs toOther.Evs w.log v.log := by
  obtain ⟨tr, w, h1, h2, _⟩ := converse_demo .new (by decide +kernel : (converse (errand .plain tA 1 2) World.new).map (fun r => r.1.map plain) =
    some [.inr (.id (ent 0)), .inr (.id (ent 2)), .inl .alreadyPresent, .inr (.bool true), .inr (.value (some (val 4 2)))])
  obtain ⟨tr', v, h3, h4, _⟩ := converse_demo .new (by decide +kernel : (converse (errand (.capacity 16) tA' 3 4) World.new).map (fun r => r.1.map plain) =
    some [.inr (.id (ent 0)), .inr (.id (ent 2)), .inl .alreadyPresent, .inr (.bool true), .inr (.value (some (val 4 4)))])
  obtain ⟨k1, k2, k3, _⟩ := C77_program (R := toOther) h1 h3 (by rw [h2, h4]; exact errand_alike 1 2 3 4)
  exact ⟨tr, tr', w, v, h1, h3, h2, h4, k1, k2, k3⟩

end Ellecs.WorldSpec
