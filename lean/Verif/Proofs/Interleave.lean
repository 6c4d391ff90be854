import Verif.Spec.Interleave
import Verif.Props.System
/-!
# Several loops at the same time
-/
namespace Ellecs.WorldSpec
open World

/-- The reference `d` is what the fetch `f` gives for the entity `e`, also when values have changed. -/
def AccOf (w : World) (e : EcsId) (f : Fetch) (d : Access) : Prop :=
  (∀ (u : World) (b : AWorld), Reachable u → u.Shows b → SameShape w u → ∀ ls, ∃ s, d.read { u with locks := ls } = .ok s ∧ b.seenDyn e f = some s) ∧
  ((∃ c p, f = .mut c ∧ d.dest = some p ∧ w.PointsAt p e c) ∨ ((∀ c, f ≠ .mut c) ∧ d.dest = none))

theorem accOf_dyn {w : World} {e : EcsId} {f : Fetch} {p : Ptr} (h : FetchAt w e f p) : AccOf w e f (f.access p) := by
  refine ⟨fun u b hu hub hs ls => ?_, ?_⟩
  · obtain ⟨s, s1, s2⟩ := readFetch_eq hu.sound.inv hub (sameShape_fetchAt hs h)
    refine ⟨s, ?_, s2⟩
    cases f <;> exact s1
  · cases f with
    | «mut» c => exact Or.inl ⟨c, p, rfl, rfl, h⟩
    | immut c => exact Or.inr ⟨fun _ hh => (by cases hh), rfl⟩
    | ecsId => exact Or.inr ⟨fun _ hh => (by cases hh), rfl⟩

theorem accOf_static {w : World} {e : EcsId} {p : Param} {f : Fetch} {i : Item} (hd : Denotes w e p i) (hb : Bound w p f) : AccOf w e f i.access := by
  refine ⟨fun u b hu hub hs ls => ?_, ?_⟩
  · obtain ⟨s, s1, s2⟩ := readItem_eq hu.sound.inv hub (sameShape_denotes hs hd)
    refine ⟨s, ?_, ?_⟩
    · cases i <;> exact s1
    · cases p with
      | ids => cases (show f = .ecsId from hb); exact s2
      | «mut» t =>
        obtain ⟨c, h1, rfl⟩ := hb
        rw [← s2]; simp only [AWorld.seenDyn, AWorld.seen, hub.types, sameShape_types hs, h1]; rfl
      | ref t =>
        obtain ⟨c, h1, rfl⟩ := hb
        rw [← s2]; simp only [AWorld.seenDyn, AWorld.seen, hub.types, sameShape_types hs, h1]; rfl
  · cases p with
    | ids =>
      cases (show f = .ecsId from hb)
      cases (show i = .id e from hd)
      exact Or.inr ⟨fun _ hh => (by cases hh), rfl⟩
    | «mut» t =>
      obtain ⟨c, h1, rfl⟩ := hb
      obtain ⟨q, c', rfl, h2, h3⟩ := hd
      rw [h1] at h2; injection h2 with h2; subst h2
      exact Or.inl ⟨c, q, rfl, rfl, h3⟩
    | ref t =>
      obtain ⟨c, h1, rfl⟩ := hb
      obtain ⟨q, c', rfl, h2, h3⟩ := hd
      exact Or.inr ⟨fun _ hh => (by cases hh), rfl⟩

/-- The row `r` belongs to the entity `e`. -/
def RowOf (w : World) (fs : List Fetch) (e : EcsId) (r : List Access) : Prop := w.Row e ∧ Pairs (AccOf w e) fs r

/-- What is stored where: a component the query may write. -/
def Put (w : World) (a : AWorld) (fs : List Fetch) (e : EcsId) (t : Ptr × Bytes) (c : EcsId × Bytes) : Prop :=
  t.2 = c.2 ∧ w.PointsAt t.1 e c.1 ∧ .mut c.1 ∈ fs ∧ ∃ m, a.info c.1 = some m ∧ c.2.length = m.layout.size

theorem stores_spec {w : World} {a : AWorld} (hi : Inv w) (ha : w.Shows a) {e : EcsId} {gs : List Fetch} {fs : List Fetch} {ds : List Access} (hd : Pairs (AccOf w e) fs ds) :
    ∀ {out : List (Option Bytes)}, (∀ f ∈ fs, f ∈ gs) →
    (∀ (i : Nat) (c : EcsId) (m : ComponentMeta) (bs : Bytes), (∃ e, w.HasComp e c) → fs[i]? = some (.mut c) → a.info c = some m → out[i]? = some (some bs) →
      bs.length = m.layout.size) →
    Pairs (Put w a gs e) (stores ds out) (AWorld.cellsDyn fs out) := by
  induction hd with
  | nil => intro out _ _; cases out <;> exact .nil
  | @cons f d fs ds h1 _ ih =>
    intro out hg ho
    cases out with
    | nil => cases f <;> exact .nil
    | cons o out =>
      have ih' := ih (out := out) (fun f hf => hg f (List.mem_cons_of_mem _ hf)) (fun i c m bs h0 h1 h2 h3 => ho (i + 1) c m bs h0 h1 h2 h3)
      rcases h1.2 with ⟨c, p, rfl, h2, h3⟩ | ⟨h2, h3⟩
      · cases o with
        | none => exact ih'
        | some bs =>
          unfold stores
          rw [h2]
          obtain ⟨_, _, _, _, _, _, _, _, _, _, _, _, _, hh⟩ := h3.cell hi
          obtain ⟨aa, a1, a2⟩ := has_used hi hh
          obtain ⟨hlc, mc, hmc⟩ := hi.live_comp a1 a2
          have q2 : w.InfoIs c mc := by
            refine (infoIs_iff hi).2 ⟨?_, hmc⟩
            apply Classical.byContradiction
            intro hr
            have := (hi.inst_none hlc).2 hr
            rw [inst_none_iff_comp, hmc] at this; cases this
          have q3 := (ha.info _ _).2 q2
          exact .cons ⟨rfl, h3, hg _ List.mem_cons_self, mc, q3, ho 0 c mc bs ⟨e, _, hh⟩ rfl q3 rfl⟩ ih'
      · cases o with
        | none => cases f <;> exact ih'
        | some bs =>
          unfold stores
          rw [h3]
          cases f with
          | «mut» c => exact absurd rfl (h2 c)
          | immut c => exact ih'
          | ecsId => exact ih'

/-! ## One loop -/

/-- What does not change about a loop. -/
structure Plan (τ : Type) where
  fs : List Fetch
  body : Body τ
  es : List EcsId
  x : τ

/-- The values stored have the sizes of the components. -/
def Plan.Fits {τ : Type} (w : World) (a : AWorld) (d : Plan τ) : Prop :=
  ∀ (x : τ) (ss : List AWorld.Seen) (i : Nat) (c : EcsId) (m : ComponentMeta) (bs : Bytes), (∃ e, w.HasComp e c) → d.fs[i]? = some (.mut c) → a.info c = some m →
    (d.body x ss).2[i]? = some (some bs) → bs.length = m.layout.size

/-- The result of the loop, alone. -/
def Plan.result {τ : Type} (d : Plan τ) (a : AWorld) : AWorld × τ := AWorld.sweep (a.rowDyn d.fs) (AWorld.cellsDyn d.fs) d.body d.es a d.x

/-- The rows that are left. -/
structure Rest {τ : Type} (w : World) (a : AWorld) (d : Plan τ) (t : Task τ) (b : AWorld) (es : List EcsId) (k : Nat) : Prop where
  nodup : es.Nodup
  rows : ∃ rows : List (List Access), Pairs (RowOf w d.fs) es rows ∧ Produces (fun s => Source.next w s) t.src rows
  fresh : ∀ e ∈ es, b.cell e = a.cell e
  count : k = es.length

/-- Where a loop is.  `b` is the world as it would be if the loop were alone, `n` bounds the turns that are left. -/
inductive At {τ : Type} (w : World) (a : AWorld) (d : Plan τ) : Task τ → AWorld → Nat → Prop
  | next {t : Task τ} {b : AWorld} {x : τ} {es : List EcsId} {k : Nat} (hp : t.phase = .next x) (hb : t.body = d.body) (hr : Rest w a d t b es k)
      (hs : AWorld.sweep (a.rowDyn d.fs) (AWorld.cellsDyn d.fs) d.body es b x = d.result a) : At w a d t b (k * (2 * d.fs.length + 3) + 1)
  | reading {t : Task τ} {b : AWorld} {x : τ} {es : List EcsId} {k : Nat} {e : EcsId} {row todo : List Access} {fpre ftodo : List Fetch} {seen : List AWorld.Seen}
      (hp : t.phase = .reading x row todo seen) (hb : t.body = d.body) (hr : Rest w a d t b es k) (he : e ∉ es) (hfresh : b.cell e = a.cell e)
      (hrow : RowOf w d.fs e row) (hsplit : d.fs = fpre ++ ftodo) (htodo : Pairs (AccOf w e) ftodo todo) (hseen : fpre.mapM (a.seenDyn e) = some seen)
      (hs : AWorld.sweep (a.rowDyn d.fs) (AWorld.cellsDyn d.fs) d.body (e :: es) b x = d.result a) :
      At w a d t b (k * (2 * d.fs.length + 3) + (todo.length + d.fs.length + 3))
  | storing {t : Task τ} {b : AWorld} {x : τ} {es : List EcsId} {k : Nat} {e : EcsId} {todo : List (Ptr × Bytes)} {cs : List (EcsId × Bytes)}
      (hp : t.phase = .storing x todo) (hb : t.body = d.body) (hr : Rest w a d t b es k) (he : e ∉ es) (hput : Pairs (Put w a d.fs e) todo cs)
      (hs : AWorld.sweep (a.rowDyn d.fs) (AWorld.cellsDyn d.fs) d.body es (b.storeAll e cs) x = d.result a) :
      At w a d t b (k * (2 * d.fs.length + 3) + (todo.length + 2))
  | ended {t : Task τ} {b : AWorld} {x : τ} (hp : t.phase = .ended x) (hs : (b, x) = d.result a) : At w a d t b 0

/-- One cell gets a new value. -/
def upd (b : AWorld) (e c : EcsId) (bs : Bytes) : AWorld := { b with cell := fun x y => if x = e ∧ y = c then some bs else b.cell x y }

/-- The loop has access to `c`. -/
def Touches (fs : List Fetch) (c : EcsId) : Prop := ∃ f ∈ fs, f.Of c

/-- What one turn does to the world and to the loop's own view. -/
def Effect (w : World) (fs : List Fetch) (u u' : World) (B B' b b' : AWorld) : Prop :=
  (u' = u ∧ B' = B ∧ b' = b) ∨ ∃ e c bs, .mut c ∈ fs ∧ w.HasComp e c ∧ B' = upd B e c bs ∧ b' = upd b e c bs

theorem source_next_shape {w u : World} (h : SameShape w u) (s : Source) : s.next u = s.next w := by
  cases s with
  | static it => simp only [Source.next, (C14_values_irrelevant h).1]
  | dyn fs it => simp only [Source.next, (C14_values_irrelevant h).2.1]

theorem stores_length : ∀ (ds : List Access) (out : List (Option Bytes)), (stores ds out).length ≤ ds.length
  | [], out => by simp [stores]
  | d :: ds, [] => by simp [stores]
  | d :: ds, none :: out => by
    unfold stores
    have := stores_length ds out
    simp only [List.length_cons]; omega
  | d :: ds, some bs :: out => by
    unfold stores
    have := stores_length ds out
    split <;> simp only [List.length_cons] <;> omega

theorem mapM_snoc {α β : Type} {g : α → Option β} {xs : List α} {x : α} {ys : List β} {y : β} (h1 : xs.mapM g = some ys) (h2 : g x = some y) :
    (xs ++ [x]).mapM g = some (ys ++ [y]) := by
  rw [List.mapM_append, h1]
  simp [h2]

theorem Pairs.length' {α β : Type} {R : α → β → Prop} {as : List α} {bs : List β} (h : Pairs R as bs) : as.length = bs.length := by
  induction h with
  | nil => rfl
  | cons _ _ ih => simp [ih]

/-- One turn of one loop, in a world where the values it has access to are those it would see alone. -/
theorem turn_spec {τ : Type} {w : World} {a : AWorld} (hw : Reachable w) (ha : w.Shows a) {d : Plan τ} (hsz : d.Fits w a) {t : Task τ} {b : AWorld} {n : Nat}
    (hat : At w a d t b n) {u : World} {B : AWorld} (hu : Reachable u) (hub : u.Shows B) (hs : SameShape w u) (hinfo : B.info = a.info)
    (hview : ∀ c, Touches d.fs c → ∀ e, B.cell e c = b.cell e c) (ls : List RwLock) (hne : ∀ x, t.phase ≠ .ended x) :
    ∃ (u' : World) (t' : Task τ) (B' b' : AWorld) (m : Nat), t.turn { u with locks := ls } = some (.ok ({ u' with locks := ls }, t')) ∧ m < n ∧ At w a d t' b' m ∧
      Reachable u' ∧ u'.Shows B' ∧ SameShape w u' ∧ u'.locks = u.locks ∧ Effect w d.fs u u' B B' b b' := by
  cases hat with
  | @next x es k hp hb hr hsw =>
    obtain ⟨rows, r1, r2⟩ := hr.rows
    have hsrc : ∀ s : Source, s.next { u with locks := ls } = s.next w := fun s => source_next_shape (u := { u with locks := ls }) hs s
    cases r1 with
    | nil =>
      obtain ⟨s', h1⟩ := Produces.stop r2
      refine ⟨u, { t with src := s', phase := .ended x }, B, b, 0, ?_, by omega, .ended rfl hsw, hu, hub, hs, rfl, Or.inl ⟨rfl, rfl, rfl⟩⟩
      unfold Task.turn
      simp only [hp, hsrc, h1]
    | @cons e row es rows h0 h1 =>
      obtain ⟨s', k1, k2⟩ := Produces.head r2
      have hnd := List.nodup_cons.1 hr.nodup
      refine ⟨u, { t with src := s', phase := .reading x row row [] }, B, b, es.length * (2 * d.fs.length + 3) + (row.length + d.fs.length + 3), ?_, ?_,
        .reading (es := es) (e := e) (fpre := []) (ftodo := d.fs) rfl hb ⟨hnd.2, ⟨rows, h1, k2⟩, fun e' he' => hr.fresh e' (List.mem_cons_of_mem _ he'), rfl⟩ hnd.1
          (hr.fresh e List.mem_cons_self) h0 rfl h0.2 rfl hsw, hu, hub, hs, rfl, Or.inl ⟨rfl, rfl, rfl⟩⟩
      · unfold Task.turn
        simp only [hp, hsrc, k1]
      · have := Pairs.length' h0.2
        rw [hr.count, List.length_cons, Nat.add_mul, ← this]
        omega
  | @reading x es k e row todo fpre ftodo seen hp hb hr he hfresh hrow hsplit htodo hseen hsw =>
    cases htodo with
    | nil =>
      rw [List.append_nil] at hsplit
      have hrd : a.rowDyn d.fs e = some seen := by
        rw [rowDyn_eq hw.sound.inv ha hrow.1, hsplit]; exact hseen
      refine ⟨u, { t with phase := .storing (t.body x seen).1 (stores row (t.body x seen).2) }, B, b,
        k * (2 * d.fs.length + 3) + ((stores row (t.body x seen).2).length + 2), ?_, ?_,
        .storing (es := es) (e := e) (cs := AWorld.cellsDyn d.fs (d.body x seen).2) rfl hb ⟨hr.nodup, hr.rows, hr.fresh, hr.count⟩ he ?_ ?_, hu, hub, hs, rfl,
        Or.inl ⟨rfl, rfl, rfl⟩⟩
      · unfold Task.turn
        simp only [hp]
      · have h1 := stores_length row (t.body x seen).2
        have h2 := Pairs.length' hrow.2
        simp only [List.length_nil]
        omega
      · rw [hb]
        exact stores_spec hw.sound.inv ha hrow.2 (fun f hf => hf) (hsz x seen)
      · rw [← hsw, hb]
        conv => rhs; unfold AWorld.sweep
        simp only [hrd]
    | @cons f dd ftodo todo h1 h2 =>
      obtain ⟨s, s1, s2⟩ := h1.1 u B hu hub hs ls
      have hf : f ∈ d.fs := by rw [hsplit]; exact List.mem_append_right _ List.mem_cons_self
      have hsame : a.seenDyn e f = some s := by
        rw [← s2]
        cases f with
        | ecsId => rfl
        | «mut» c => simp only [AWorld.seenDyn]; rw [hview c ⟨_, hf, Or.inl rfl⟩, hfresh]
        | immut c => simp only [AWorld.seenDyn]; rw [hview c ⟨_, hf, Or.inr rfl⟩, hfresh]
      refine ⟨u, { t with phase := .reading x row todo (seen ++ [s]) }, B, b, k * (2 * d.fs.length + 3) + (todo.length + d.fs.length + 3), ?_, ?_,
        .reading (es := es) (e := e) (fpre := fpre ++ [f]) (ftodo := ftodo) rfl hb ⟨hr.nodup, hr.rows, hr.fresh, hr.count⟩ he hfresh hrow (by rw [hsplit, List.append_assoc]; rfl) h2
          (mapM_snoc hseen hsame) hsw, hu, hub, hs, rfl, Or.inl ⟨rfl, rfl, rfl⟩⟩
      · unfold Task.turn
        simp only [hp, s1]
      · simp only [List.length_cons]; omega
  | @storing x es k e todo cs hp hb hr he hput hsw =>
    cases hput with
    | nil =>
      refine ⟨u, { t with phase := .next x }, B, b, k * (2 * d.fs.length + 3) + 1, ?_, ?_,
        .next (es := es) rfl hb ⟨hr.nodup, hr.rows, hr.fresh, hr.count⟩ hsw, hu, hub, hs, rfl, Or.inl ⟨rfl, rfl, rfl⟩⟩
      · unfold Task.turn
        simp only [hp]
      · simp only [List.length_nil]; omega
    | @cons p c todo cs h1 h2 =>
      obtain ⟨p, bs⟩ := p
      obtain ⟨c, bs'⟩ := c
      obtain ⟨q1, q2, q3, m, q4, q5⟩ := h1
      simp only at q1 q2 q3 q4 q5
      subst q1
      obtain ⟨u', g1, g2, ⟨g3, g5⟩, g4⟩ := store_one hu hub (SameShape.pointsAt hs q2) ((hub.info c m).1 (by rw [hinfo]; exact q4)) q5
      obtain ⟨_, _, _, _, _, _, _, _, _, _, _, _, _, hh⟩ := q2.cell hw.sound.inv
      refine ⟨u', { t with phase := .storing x todo }, upd B e c bs, upd b e c bs, k * (2 * d.fs.length + 3) + (todo.length + 2), ?_, ?_,
        .storing (es := es) (e := e) (cs := cs) rfl hb ⟨hr.nodup, hr.rows, ?_, hr.count⟩ he h2 hsw, g2, g4, SameShape.trans hs g3, g5, Or.inr ⟨e, c, bs, q3, ⟨_, hh⟩, rfl, rfl⟩⟩
      · unfold Task.turn
        simp only [hp, writePtr_locks ls g1]
      · simp only [List.length_cons]; omega
      · intro e' he'
        rw [← hr.fresh e' he']
        funext y
        exact if_neg (fun (hh : e' = e ∧ y = c) => he (hh.1 ▸ he'))
  | ended hp _ => exact absurd hp (hne _)

/-! ## All loops -/

/-- Two loops have access to the same component, one of them mutable, only if no entity has that component. -/
def Separate {τ : Type} (w : World) (ds : List (Plan τ)) : Prop :=
  ∀ (i j : Nat) (d d' : Plan τ) (c : EcsId), i ≠ j → ds[i]? = some d → ds[j]? = some d' → .mut c ∈ d.fs → Touches d'.fs c → ∀ e, ¬ w.HasComp e c

/-- Where all loops are. -/
structure Group {τ : Type} (w : World) (a : AWorld) (ds : List (Plan τ)) (ts : List (Task τ)) (u : World) (B : AWorld) (own : Nat → AWorld) (ns : List Nat) : Prop where
  reach : Reachable u
  shows : u.Shows B
  shape : SameShape w u
  locks : u.locks = w.locks
  only : B = { a with cell := B.cell }
  len : ts.length = ds.length
  len' : ns.length = ds.length
  places : ∀ (i : Nat) (d : Plan τ) (t : Task τ) (n : Nat), ds[i]? = some d → ts[i]? = some t → ns[i]? = some n → At w a d t (own i) n
  view : ∀ (i : Nat) (d : Plan τ), ds[i]? = some d → ∀ c, Touches d.fs c → ∀ e, B.cell e c = (own i).cell e c
  frame : ∀ c, (∀ d ∈ ds, .mut c ∉ d.fs) → ∀ e, B.cell e c = a.cell e c

theorem sum_set : ∀ (ns : List Nat) (i n m : Nat), ns[i]? = some n → m < n → (ns.set i m).sum < ns.sum
  | [], _, _, _, h, _ => by simp at h
  | k :: ns, 0, n, m, h, hm => by
    simp only [List.getElem?_cons_zero, Option.some.injEq] at h
    subst h
    simp only [List.set_cons_zero, List.sum_cons]; omega
  | k :: ns, i + 1, n, m, h, hm => by
    have := sum_set ns i n m h hm
    simp only [List.set_cons_succ, List.sum_cons]; omega

theorem group_turn {τ : Type} {w : World} {a : AWorld} (hw : Reachable w) (ha : w.Shows a) {ds : List (Plan τ)} (hsz : ∀ d ∈ ds, d.Fits w a) (hsep : Separate w ds)
    {ts : List (Task τ)} {u : World} {B : AWorld} {own : Nat → AWorld} {ns : List Nat} (hg : Group w a ds ts u B own ns) (ls : List RwLock) {i : Nat} {t : Task τ}
    (ht : ts[i]? = some t) (hne : ∀ x, t.phase ≠ .ended x) :
    ∃ (u' : World) (t' : Task τ) (B' : AWorld) (own' : Nat → AWorld) (ns' : List Nat), t.turn { u with locks := ls } = some (.ok ({ u' with locks := ls }, t')) ∧
      ns'.sum < ns.sum ∧ Group w a ds (ts.set i t') u' B' own' ns' := by
  have hi : i < ts.length := (List.getElem?_eq_some_iff.1 ht).1
  obtain ⟨d, hd⟩ : ∃ d, ds[i]? = some d := ⟨ds[i]'(hg.len ▸ hi), List.getElem?_eq_getElem _⟩
  obtain ⟨n, hn⟩ : ∃ n, ns[i]? = some n := ⟨ns[i]'(by rw [hg.len', ← hg.len]; exact hi), List.getElem?_eq_getElem _⟩
  have hinfo : B.info = a.info := by rw [hg.only]
  obtain ⟨u', t', B', b', m, k1, k2, k3, k4, k5, k6, k7, k8⟩ := turn_spec hw ha (hsz d (List.mem_of_getElem? hd)) (hg.places i d t n hd ht hn) hg.reach hg.shows hg.shape hinfo
    (hg.view i d hd) ls hne
  have hplaces : ∀ (j : Nat) (d' : Plan τ) (t'' : Task τ) (n' : Nat), ds[j]? = some d' → (ts.set i t')[j]? = some t'' → (ns.set i m)[j]? = some n' →
      At w a d' t'' (if j = i then b' else own j) n' := by
    intro j d' t'' n' h1 h2 h3
    by_cases hj : j = i
    · subst hj
      rw [List.getElem?_set_self (by exact hi)] at h2
      rw [List.getElem?_set_self (by rw [hg.len', ← hg.len]; exact hi)] at h3
      rw [hd] at h1
      cases h1; cases h2; cases h3
      rw [if_pos rfl]
      exact k3
    · rw [List.getElem?_set_ne (Ne.symm hj)] at h2 h3
      rw [if_neg hj]
      exact hg.places j d' t'' n' h1 h2 h3
  refine ⟨u', t', B', fun j => if j = i then b' else own j, ns.set i m, k1, sum_set ns i n m hn k2, k4, k5, k6, k7.trans hg.locks, ?_, ?_, ?_, hplaces, ?_, ?_⟩
  · rcases k8 with ⟨_, h1, _⟩ | ⟨e, c, bs, _, _, h1, _⟩
    · rw [h1]; exact hg.only
    · rw [h1]; unfold upd; rw [hg.only]
  · rw [List.length_set]; exact hg.len
  · rw [List.length_set]; exact hg.len'
  · intro j d' hd' c hc e
    rcases k8 with ⟨_, h1, h2⟩ | ⟨e', c', bs, hm, hh, h1, h2⟩
    · rw [h1, h2]
      by_cases hj : j = i
      · subst hj; rw [if_pos rfl]; exact hg.view j d' hd' c hc e
      · rw [if_neg hj]; exact hg.view j d' hd' c hc e
    · rw [h1, h2]
      by_cases hj : j = i
      · subst hj
        rw [if_pos rfl]
        simp only [upd]
        rw [hg.view j d' hd' c hc e]
      · rw [if_neg hj]
        simp only [upd]
        rw [if_neg, hg.view j d' hd' c hc e]
        rintro ⟨rfl, rfl⟩
        exact hsep i j d d' c (Ne.symm hj) hd hd' hm hc e hh
  · intro c hc e
    rcases k8 with ⟨_, h1, h2⟩ | ⟨e', c', bs, hm, hh, h1, h2⟩
    · rw [h1]; exact hg.frame c hc e
    · rw [h1]
      simp only [upd]
      rw [if_neg]
      · exact hg.frame c hc e
      · rintro ⟨rfl, rfl⟩
        exact hc d (List.mem_of_getElem? hd) hm

theorem group_turns {τ : Type} {w : World} {a : AWorld} (hw : Reachable w) (ha : w.Shows a) {ds : List (Plan τ)} (hsz : ∀ d ∈ ds, d.Fits w a) (hsep : Separate w ds)
    {ts : List (Task τ)} {u : World} {B : AWorld} {own : Nat → AWorld} {ns : List Nat} (hg : Group w a ds ts u B own ns) (ls : List RwLock) {k : Nat} {v' : World} {ts' : List (Task τ)}
    (h : Turns k { u with locks := ls } ts v' ts') :
    ∃ (u' : World) (B' : AWorld) (own' : Nat → AWorld) (ns' : List Nat), v' = { u' with locks := ls } ∧ ns'.sum + k ≤ ns.sum ∧ Group w a ds ts' u' B' own' ns' := by
  generalize hv : ({ u with locks := ls } : World) = v at h
  induction h with
  | refl => exact ⟨u, B, own, ns, hv.symm, Nat.le_refl _, hg⟩
  | turn i h1 h2 h3 ih =>
    obtain ⟨u1, B1, own1, ns1, rfl, i2, i3⟩ := ih hg hv
    rename_i t t'
    obtain ⟨u', t2, B', own', ns', k1, k2, k3⟩ := group_turn hw ha hsz hsep i3 ls h2 (fun x hx => by
      unfold Task.turn at h3; rw [hx] at h3; cases h3)
    rw [h3] at k1
    injection k1 with k1
    injection k1 with k1
    injection k1 with k1 k4
    subst k4
    exact ⟨u', B', own', ns', k1, by omega, k3⟩

/-! ## Starting -/

theorem Produces.map' {σ σ' α β : Type} {next : σ → Except Fault (Option α × σ)} {next' : σ' → Except Fault (Option β × σ')} {g : σ → σ'} {h : α → β}
    (hn : ∀ s, next' (g s) = match next s with | .error f => .error f | .ok (none, s') => .ok (none, g s') | .ok (some x, s') => .ok (some (h x), g s')) {s : σ} {xs : List α}
    (hp : Produces next s xs) : Produces next' (g s) (xs.map h) := by
  have key : ∀ (n : Nat) (s : σ), callN next' n (g s) = match callN next n s with | .error f => .error f | .ok ys => .ok (ys.map (Option.map h)) := by
    intro n
    induction n with
    | zero => intro s; rfl
    | succ n ih =>
      intro s
      unfold callN
      rw [hn s]
      cases next s with
      | error f => rfl
      | ok r =>
        obtain ⟨y, s'⟩ := r
        cases y with
        | none =>
          simp only [ih s']
          cases callN next n s' <;> rfl
        | some y =>
          simp only [ih s']
          cases callN next n s' <;> rfl
  intro n
  rw [key, hp n]
  simp [List.map_take, Function.comp_def]

/-- The plan `d` belongs to the job `j`. -/
structure PlanOf {τ : Type} (w : World) (a : AWorld) (j : Job τ) (d : Plan τ) : Prop where
  nodup : d.es.Nodup
  rows : ∀ e, e ∈ d.es ↔ (j.row a e).isSome = true
  fits : d.Fits w a
  result : d.result a = j.alone a d.es
  writes : ∀ c, j.Writes a c ↔ .mut c ∈ d.fs
  fetches : match j with
    | .static ps _ _ => Pairs (Bound w) ps d.fs ∨ d.fs = [] ∧ allFetches w ps = none
    | .dyn fs _ _ => d.fs = fs

theorem mapM_pairs {α β γ : Type} {R : α → β → Prop} {g : α → Option γ} {k : β → Option γ} {as : List α} {bs : List β} (h : Pairs R as bs)
    (hg : ∀ x y, R x y → g x = k y) : as.mapM g = bs.mapM k := by
  induction h with
  | nil => rfl
  | cons h1 _ ih => simp only [List.mapM_cons, hg _ _ h1, ih]

theorem row_bound {w : World} {a : AWorld} (ha : a.types = w.typeMap) {ps : List Param} {fs : List Fetch} (hb : Pairs (Bound w) ps fs) : a.row ps = a.rowDyn fs := by
  funext e
  unfold AWorld.row AWorld.rowDyn
  rw [mapM_pairs hb (g := a.seen e) (k := a.seenDyn e)]
  intro p f h
  cases p with
  | ids => cases (show f = .ecsId from h); rfl
  | «mut» t =>
    obtain ⟨c, h1, rfl⟩ := h
    simp only [AWorld.seen, AWorld.seenDyn, ha, h1]; rfl
  | ref t =>
    obtain ⟨c, h1, rfl⟩ := h
    simp only [AWorld.seen, AWorld.seenDyn, ha, h1]; rfl

theorem cells_bound {w : World} {a : AWorld} (ha : a.types = w.typeMap) {ps : List Param} {fs : List Fetch} (hb : Pairs (Bound w) ps fs) : a.cells ps = AWorld.cellsDyn fs := by
  funext out
  induction hb generalizing out with
  | nil => cases out <;> rfl
  | @cons p f ps fs h _ ih =>
    cases out with
    | nil => cases p <;> cases f <;> rfl
    | cons o out =>
      cases p with
      | ids =>
        cases (show f = .ecsId from h)
        exact ih out
      | ref t =>
        obtain ⟨c, h1, rfl⟩ := h
        exact ih out
      | «mut» t =>
        obtain ⟨c, h1, rfl⟩ := h
        cases o with
        | none => exact ih out
        | some bs =>
          unfold AWorld.cells AWorld.cellsDyn
          rw [ha, h1]
          simp only [ih out]

theorem zip_access {w : World} {e : EcsId} {fs : List Fetch} {ps : List Ptr} (h : Pairs (FetchAt w e) fs ps) :
    Pairs (AccOf w e) fs ((fs.zip ps).map (fun x => x.1.access x.2)) := by
  induction h with
  | nil => exact .nil
  | cons h1 _ ih => exact .cons (accOf_dyn h1) ih

theorem pairs_access {w : World} {e : EcsId} {ps : List Param} {is : List Item} (h : Pairs (Denotes w e) ps is) : ∀ {fs : List Fetch}, Pairs (Bound w) ps fs →
    Pairs (AccOf w e) fs (is.map Item.access) := by
  induction h with
  | nil => intro fs hb; cases hb; exact .nil
  | cons h1 _ ih =>
    intro fs hb
    cases hb with
    | cons b1 b2 => exact .cons (accOf_static h1 b1) (ih b2)

theorem Pairs.map_right' {α β γ : Type} {R : α → β → Prop} {S : α → γ → Prop} {g : β → γ} {as : List α} {bs : List β} (h : Pairs R as bs)
    (hg : ∀ x y, x ∈ as → R x y → S x (g y)) : Pairs S as (bs.map g) := by
  induction h with
  | nil => exact .nil
  | cons h1 _ ih => exact .cons (hg _ _ List.mem_cons_self h1) (ih (fun x y hx => hg x y (List.mem_cons_of_mem _ hx)))

theorem pairs_mem {α β : Type} {R : α → β → Prop} {as : List α} {bs : List β} (h : Pairs R as bs) : (∀ x ∈ as, ∃ y ∈ bs, R x y) ∧ ∀ y ∈ bs, ∃ x ∈ as, R x y := by
  induction h with
  | nil => exact ⟨fun _ h => (nomatch h), fun _ h => (nomatch h)⟩
  | @cons x y as bs h1 _ ih =>
    constructor
    · intro z hz
      rcases List.mem_cons.1 hz with rfl | hz
      · exact ⟨y, List.mem_cons_self, h1⟩
      · obtain ⟨z', h2, h3⟩ := ih.1 z hz
        exact ⟨z', List.mem_cons_of_mem _ h2, h3⟩
    · intro z hz
      rcases List.mem_cons.1 hz with rfl | hz
      · exact ⟨x, List.mem_cons_self, h1⟩
      · obtain ⟨z', h2, h3⟩ := ih.2 z hz
        exact ⟨z', List.mem_cons_of_mem _ h2, h3⟩

theorem pairs_index {α β : Type} {R : α → β → Prop} {as : List α} {bs : List β} (h : Pairs R as bs) : ∀ {i : Nat} {y : β}, bs[i]? = some y →
    ∃ x, as[i]? = some x ∧ R x y := by
  induction h with
  | nil => intro i y hh; simp at hh
  | cons h1 _ ih =>
    intro i y hh
    cases i with
    | zero => simp at hh; subst hh; exact ⟨_, rfl, h1⟩
    | succ i => exact ih hh

theorem bound_of {w : World} : ∀ {ps : List Param}, (∀ p ∈ ps, ∀ t, p.Of t → w.typeMap t ≠ none) → ∃ fs, Pairs (Bound w) ps fs
  | [], _ => ⟨[], .nil⟩
  | p :: ps, hh => by
    obtain ⟨fs, g⟩ := bound_of (ps := ps) (fun p hp => hh p (List.mem_cons_of_mem _ hp))
    cases p with
    | ids => exact ⟨.ecsId :: fs, .cons rfl g⟩
    | «mut» t =>
      have := hh (.mut t) List.mem_cons_self t (Or.inl rfl)
      cases hc : w.typeMap t with
      | none => exact absurd hc this
      | some c => exact ⟨.mut c :: fs, .cons ⟨c, hc, rfl⟩ g⟩
    | ref t =>
      have := hh (.ref t) List.mem_cons_self t (Or.inr rfl)
      cases hc : w.typeMap t with
      | none => exact absurd hc this
      | some c => exact ⟨.immut c :: fs, .cons ⟨c, hc, rfl⟩ g⟩

/-- Starting a job: an initial place. -/
theorem start_spec {τ : Type} {w : World} (hw : Reachable w) (hlen : w.archetypes.length < 2 ^ 32) {ls : List RwLock} {qs : List LiveQuery} (hr : LockRun w ls qs)
    {a : AWorld} (ha : w.Shows a) {j : Job τ} (hok : j.Ok w a) {t : Task τ} {gs : List Guard} {v : World} (h : j.start { w with locks := ls } = .ok (t, gs) v) :
    ∃ (ls' : List RwLock) (held : List (Fetch × Guard)) (d : Plan τ), v = { w with locks := ls' } ∧ LockRun w ls' (qs ++ [⟨[], held, none⟩]) ∧ held.map Prod.fst = d.fs ∧
      releaseAll false ls' gs = ls ∧ PlanOf w a j d ∧ At w a d t a (d.es.length * (2 * d.fs.length + 3) + 1) := by
  have hi := hw.sound.inv
  cases j with
  | static ps body x =>
    simp only [Job.start, bind, EStateM.bind] at h
    cases hq : query ps { w with locks := ls } with
    | error f v' => rw [hq] at h; cases h
    | ok q v' =>
      rw [hq] at h
      simp only [get, getThe, MonadStateOf.get, EStateM.get, liftE] at h
      cases hit : q.iter v' with
      | error f => rw [hit] at h; cases h
      | ok it =>
        rw [hit] at h
        simp only [pure, EStateM.pure] at h
        injection h with h0 hv
        injection h0 with ht hgs
        subst ht hgs hv
        obtain ⟨ls', held, rfl, s2, s3, s4⟩ := C21_static_steps hw hr hq
        obtain ⟨hne, hty⟩ := hok
        obtain ⟨it', es, rows, h1, h2, h3, h4, h5⟩ := C14_iter_exact hw ⟨ls, (hr.inv hw).len, rfl⟩ hlen hne hq
        rw [hit] at h1; injection h1 with h1; subst h1
        have hdrop := C22_static_drop hw hr hq
        unfold dropGuards at hdrop
        injection hdrop with _ hd
        have hrel : releaseAll false ls' q.guards = ls := congrArg World.locks hd
        obtain ⟨_, _, hf, _⟩ := query_ok hq
        rw [allFetches_locks] at hf
        have hrows : ∀ e, e ∈ es ↔ (a.row ps e).isSome = true := fun e => (h4 e).trans (row_isSome hi ha).symm
        have hprod : Produces (fun s => Source.next w s) (.static it) (rows.map (fun r => r.map Item.access)) := by
          refine Produces.map' (next := fun s => StaticIter.next w s) (g := Source.static) (fun s => ?_) ?_
          · simp only [Source.next]
            cases StaticIter.next w s with
            | error f => rfl
            | ok r => obtain ⟨y, s'⟩ := r; cases y <;> rfl
          · have : (fun s => StaticIter.next { w with locks := ls' } s) = fun s => StaticIter.next w s :=
              funext (fun s => (C14_values_irrelevant (show SameShape w { w with locks := ls' } from rfl)).1 s)
            rw [← this]; exact h2
        cases hfs : allFetches w ps with
        | none =>
          have hnil : es = [] := by
            cases es with
            | nil => rfl
            | cons e es =>
              exfalso
              have hh := ((h4 e).1 List.mem_cons_self).2
              have : ∃ fs, Pairs (Bound w) ps fs := bound_of (fun p hp t ht hn => by
                obtain ⟨bs, c, hc, _⟩ := hh p hp t ht
                rw [hn] at hc; cases hc)
              obtain ⟨fs, g⟩ := this
              rw [allFetches_bound.2 g] at hfs; cases hfs
          subst hnil
          rw [hf, hfs] at s3
          refine ⟨ls', held, ⟨[], body, [], x⟩, rfl, s2, s3, hrel, ⟨List.nodup_nil, hrows, ?_, rfl, ?_, Or.inr ⟨rfl, hfs⟩⟩, ?_⟩
          · intro x ss i c m bs _ hh; simp at hh
          · intro c
            constructor
            · rintro ⟨hh, _⟩
              exfalso
              have : ∃ fs, Pairs (Bound w) ps fs := bound_of (by rw [← ha.types]; exact hh)
              obtain ⟨fs, g⟩ := this
              rw [allFetches_bound.2 g] at hfs; cases hfs
            · intro hh; simp at hh
          · refine .next (es := []) rfl rfl ⟨List.nodup_nil, ⟨_, ?_, hprod⟩, fun _ hh => (nomatch hh), rfl⟩ rfl
            cases h5
            exact .nil
        | some fs =>
          have hb := allFetches_bound.1 hfs
          rw [hf, hfs] at s3
          refine ⟨ls', held, ⟨fs, body, es, x⟩, rfl, s2, s3, hrel, ⟨h3, hrows, ?_, ?_, ?_, Or.inl hb⟩, ?_⟩
          · intro x ss i c m bs ⟨e, bs', he⟩ hfi hm hbs
            obtain ⟨p, p1, p2⟩ := pairs_index hb hfi
            cases p with
            | ids => cases (show Fetch.mut c = .ecsId from p2)
            | ref t => obtain ⟨c', _, hh⟩ := p2; cases hh
            | «mut» t =>
              obtain ⟨c', hc', hh⟩ := p2
              injection hh with hh; subst hh
              have q1 := (ha.info c m).1 hm
              have q2 := typed_info' hi hc' he
              obtain ⟨_, q1⟩ := q1
              obtain ⟨_, q2⟩ := q2
              rw [q1] at q2
              cases q2
              exact hty x ss i t bs p1 hbs
          · simp only [Plan.result, Job.alone, row_bound ha.types hb, cells_bound ha.types hb]
          · intro c
            constructor
            · rintro ⟨_, t, t1, t2⟩
              obtain ⟨f, f1, c', f2, rfl⟩ := (pairs_mem hb).1 _ t1
              rw [ha.types, f2] at t2; injection t2 with t2; subst t2
              exact f1
            · intro hm
              obtain ⟨p, p1, p2⟩ := (pairs_mem hb).2 _ hm
              refine ⟨fun p hp t ht => ?_, ?_⟩
              · obtain ⟨f, _, f2⟩ := (pairs_mem hb).1 _ hp
                rw [ha.types]
                rcases ht with rfl | rfl
                · obtain ⟨c, hc, _⟩ := f2; rw [hc]; simp
                · obtain ⟨c, hc, _⟩ := f2; rw [hc]; simp
              · cases p with
                | ids => cases (show Fetch.mut c = .ecsId from p2)
                | ref t => obtain ⟨c', _, hh⟩ := p2; cases hh
                | «mut» t =>
                  obtain ⟨c', hc', hh⟩ := p2
                  injection hh with hh; subst hh
                  exact ⟨t, p1, by rw [ha.types]; exact hc'⟩
          · refine .next (es := es) rfl rfl ⟨h3, ⟨_, ?_, hprod⟩, fun _ _ => rfl, rfl⟩ rfl
            exact Pairs.map_right' h5 (fun e r he hh => ⟨((h4 e).1 he).1, pairs_access hh hb⟩)
  | dyn fs body x =>
    simp only [Job.start, bind, EStateM.bind] at h
    cases hq : queryDynamic fs { w with locks := ls } with
    | error f v' => rw [hq] at h; cases h
    | ok q v' =>
      rw [hq] at h
      simp only [get, getThe, MonadStateOf.get, EStateM.get, liftE] at h
      cases hit : q.iter v' with
      | error f => rw [hit] at h; cases h
      | ok it =>
        rw [hit] at h
        simp only [pure, EStateM.pure] at h
        injection h with h0 hv
        injection h0 with ht hgs
        subst ht hgs hv
        obtain ⟨ls', held, rfl, s2, s3, s4⟩ := C21_dynamic_steps hw hr hq
        obtain ⟨hne, hty, hc⟩ := hok
        have hc : Calm w ∨ ∀ f ∈ fs, ∀ c, f.Of c → w.Row c := hc.imp_right (fun hh f hf c hc => by
          apply Classical.byContradiction
          intro hr
          exact hh f hf c hc ((ha.infoNone hi).2 hr))
        obtain ⟨it', es, rows, h1, h2, h3, h4, h5⟩ := C15_iter_exact hw ⟨ls, (hr.inv hw).len, rfl⟩ hlen hne hc hq
        rw [hit] at h1; injection h1 with h1; subst h1
        have hdrop := C22_dynamic_drop hw hr hq
        unfold dropGuards at hdrop
        injection hdrop with _ hd
        have hrel : releaseAll false ls' q.guards = ls := congrArg World.locks hd
        have hrows : ∀ e, e ∈ es ↔ (a.rowDyn fs e).isSome = true := fun e => (h4 e).trans (rowDyn_isSome hi ha).symm
        have hprod : Produces (fun s => Source.next w s) (.dyn fs it) (rows.map (fun r => (fs.zip r).map (fun x => x.1.access x.2))) := by
          refine Produces.map' (next := fun s => DynIter.next w s) (g := Source.dyn fs) (fun s => ?_) ?_
          · simp only [Source.next]
            cases DynIter.next w s with
            | error f => rfl
            | ok r => obtain ⟨y, s'⟩ := r; cases y <;> rfl
          · have : (fun s => DynIter.next { w with locks := ls' } s) = fun s => DynIter.next w s :=
              funext (fun s => (C14_values_irrelevant (show SameShape w { w with locks := ls' } from rfl)).2.1 s)
            rw [← this]; exact h2
        refine ⟨ls', held, ⟨fs, body, es, x⟩, rfl, s2, s3, hrel, ⟨h3, hrows, ?_, rfl, fun _ => Iff.rfl, rfl⟩, ?_⟩
        · intro x ss i c m bs _ q1 q2 q3
          exact hty x ss i c m bs q1 q2 q3
        · refine .next (es := es) rfl rfl ⟨h3, ⟨_, ?_, hprod⟩, fun _ _ => rfl, rfl⟩ rfl
          exact Pairs.map_right' h5 (fun e r he hh => ⟨((h4 e).1 he).1, zip_access hh⟩)

theorem accesses_snoc (qs : List LiveQuery) (q : LiveQuery) : accesses (qs ++ [q]) = accesses qs ++ q.held.map Prod.fst := by
  simp [accesses]

/-- Starting all jobs. -/
theorem startAll_spec {τ : Type} {w : World} (hw : Reachable w) (hlen : w.archetypes.length < 2 ^ 32) {a : AWorld} (ha : w.Shows a) :
    ∀ {jobs : List (Job τ)} {ls : List RwLock} {qs : List LiveQuery}, LockRun w ls qs → (∀ j ∈ jobs, j.Ok w a) → ∀ {ths : List (Task τ × List Guard)} {v : World},
    Job.startAll jobs { w with locks := ls } = .ok ths v →
    ∃ (ls' : List RwLock) (qs' : List LiveQuery) (ds : List (Plan τ)), v = { w with locks := ls' } ∧ LockRun w ls' qs' ∧ accesses qs' = accesses qs ++ ds.flatMap Plan.fs ∧
      (∀ x : World, Job.dropAll (ths.map Prod.snd) { x with locks := ls' } = .ok () { x with locks := ls }) ∧ Pairs (PlanOf w a) jobs ds ∧
      Pairs (fun d th => At w a d th.1 a (d.es.length * (2 * d.fs.length + 3) + 1)) ds ths := by
  intro jobs
  induction jobs with
  | nil =>
    intro ls qs hr _ ths v h
    simp only [Job.startAll, pure, EStateM.pure] at h
    injection h with h1 h2; subst h1 h2
    exact ⟨ls, qs, [], rfl, hr, by simp, fun x => rfl, .nil, .nil⟩
  | cons j jobs ih =>
    intro ls qs hr hok ths v h
    simp only [Job.startAll, bind, EStateM.bind] at h
    cases hj : j.start { w with locks := ls } with
    | error f v' => rw [hj] at h; cases h
    | ok t v' =>
      rw [hj] at h
      simp only at h
      obtain ⟨t, gs⟩ := t
      obtain ⟨ls1, held, d, rfl, s2, s3, s4, s5, s6⟩ := start_spec hw hlen hr ha (hok j List.mem_cons_self) hj
      cases hjs : Job.startAll jobs { w with locks := ls1 } with
      | error f v' => rw [hjs] at h; cases h
      | ok ths' v2 =>
        rw [hjs] at h
        simp only [pure, EStateM.pure] at h
        injection h with h1 h2; subst h1 h2
        obtain ⟨ls', qs', ds, rfl, r2, r3, r4, r5, r6⟩ := ih s2 (fun j hj => hok j (List.mem_cons_of_mem _ hj)) hjs
        refine ⟨ls', qs', d :: ds, rfl, r2, ?_, ?_, .cons s5 r5, .cons s6 r6⟩
        · rw [r3, accesses_snoc, s3, List.flatMap_cons, List.append_assoc]
        · intro x
          simp only [List.map_cons, Job.dropAll, bind, EStateM.bind, r4 x, dropGuards, s4]

theorem flat_apart {τ : Type} : ∀ (ds : List (Plan τ)) {i j : Nat} {d d' : Plan τ} {f f' : Fetch}, i ≠ j → ds[i]? = some d → ds[j]? = some d' → f ∈ d.fs → f' ∈ d'.fs →
    ∃ m n : Nat, m ≠ n ∧ (ds.flatMap Plan.fs)[m]? = some f ∧ (ds.flatMap Plan.fs)[n]? = some f' := by
  intro ds
  have at_ : ∀ (ds : List (Plan τ)) {j : Nat} {d' : Plan τ} {f' : Fetch}, ds[j]? = some d' → f' ∈ d'.fs → ∃ n : Nat, (ds.flatMap Plan.fs)[n]? = some f' := by
    intro ds j d' f' h1 h2
    exact List.mem_iff_getElem?.1 (List.mem_flatMap.2 ⟨d', List.mem_of_getElem? h1, h2⟩)
  induction ds with
  | nil => intro i j d d' f f' _ h; simp at h
  | cons d0 ds ih =>
    intro i j d d' f f' hij h1 h2 h3 h4
    rw [List.flatMap_cons]
    cases i with
    | zero =>
      simp at h1; subst h1
      cases j with
      | zero => exact absurd rfl hij
      | succ j =>
        obtain ⟨m, hm⟩ := List.mem_iff_getElem?.1 h3
        obtain ⟨n, hn⟩ := at_ ds (j := j) h2 h4
        have hlt := (List.getElem?_eq_some_iff.1 hm).1
        refine ⟨m, d0.fs.length + n, by omega, ?_, ?_⟩
        · rw [List.getElem?_append_left hlt]; exact hm
        · rw [List.getElem?_append_right (by omega)]; rw [Nat.add_sub_cancel_left]; exact hn
    | succ i =>
      cases j with
      | zero =>
        simp at h2; subst h2
        obtain ⟨m, hm⟩ := List.mem_iff_getElem?.1 h4
        obtain ⟨n, hn⟩ := at_ ds (j := i) h1 h3
        have hlt := (List.getElem?_eq_some_iff.1 hm).1
        refine ⟨d0.fs.length + n, m, by omega, ?_, ?_⟩
        · rw [List.getElem?_append_right (by omega)]; rw [Nat.add_sub_cancel_left]; exact hn
        · rw [List.getElem?_append_left hlt]; exact hm
      | succ j =>
        obtain ⟨m, n, k1, k2, k3⟩ := ih (i := i) (j := j) (by omega) h1 h2 h3 h4
        refine ⟨d0.fs.length + m, d0.fs.length + n, by omega, ?_, ?_⟩
        · rw [List.getElem?_append_right (by omega)]; rw [Nat.add_sub_cancel_left]; exact k2
        · rw [List.getElem?_append_right (by omega)]; rw [Nat.add_sub_cancel_left]; exact k3

theorem separate_of {τ : Type} {w : World} (hw : Reachable w) {ls : List RwLock} {qs qs' : List LiveQuery} (hr : LockRun w ls qs') {ds : List (Plan τ)}
    (h : accesses qs' = accesses qs ++ ds.flatMap Plan.fs) : Separate w ds := by
  intro i j d d' c hij h1 h2 h3 ⟨f', h4, h5⟩
  obtain ⟨m, n, k1, k2, k3⟩ := flat_apart ds hij h1 h2 h3 h4
  refine (C21_no_alias hw hr (i := (accesses qs).length + m) (j := (accesses qs).length + n) (by omega) (f := .mut c) (f' := f') ?_ ?_ rfl h5).2
  · rw [h, List.getElem?_append_right (by omega), Nat.add_sub_cancel_left]; exact k2
  · rw [h, List.getElem?_append_right (by omega), Nat.add_sub_cancel_left]; exact k3

theorem group_start {τ : Type} {w : World} (hw : Reachable w) {a : AWorld} (ha : w.Shows a) {ds : List (Plan τ)} {ths : List (Task τ × List Guard)}
    (h : Pairs (fun d th => At w a d th.1 a (d.es.length * (2 * d.fs.length + 3) + 1)) ds ths) :
    Group w a ds (ths.map Prod.fst) w a (fun _ => a) (ds.map (fun d => d.es.length * (2 * d.fs.length + 3) + 1)) := by
  refine ⟨hw, ha, rfl, rfl, rfl, by rw [List.length_map, Pairs.length' h], by rw [List.length_map], ?_, fun _ _ _ _ _ _ => rfl, fun _ _ _ => rfl⟩
  intro i d t n h1 h2 h3
  rw [List.getElem?_map] at h2 h3
  cases h4 : ths[i]? with
  | none => rw [h4] at h2; cases h2
  | some th =>
    rw [h4] at h2
    obtain ⟨d', k1, k2⟩ := pairs_index h h4
    rw [h1] at k1; injection k1 with k1; subst k1
    rw [h1] at h3
    cases h2; cases h3
    exact k2

/-! ## One loop after the other -/

theorem storeAll_other (e c : EcsId) : ∀ (cs : List (EcsId × Bytes)) (a : AWorld), (∀ x ∈ cs, x.1 ≠ c) → (a.storeAll e cs).cell e c = a.cell e c
  | [], _, _ => rfl
  | (c', bs) :: cs, a, h => by
    unfold AWorld.storeAll
    rw [storeAll_other e c cs _ (fun x hx => h x (List.mem_cons_of_mem _ hx))]
    exact if_neg (fun hh => h (c', bs) List.mem_cons_self hh.2.symm)

theorem storeAll_cell (e c : EcsId) : ∀ (cs : List (EcsId × Bytes)) (a b : AWorld), a.cell e c = b.cell e c → (a.storeAll e cs).cell e c = (b.storeAll e cs).cell e c
  | [], _, _, h => h
  | (c', bs) :: cs, a, b, h => by
    unfold AWorld.storeAll
    refine storeAll_cell e c cs _ _ ?_
    simp only [h]

theorem cellsDyn_mem : ∀ (fs : List Fetch) (out : List (Option Bytes)) (x : EcsId × Bytes), x ∈ AWorld.cellsDyn fs out → .mut x.1 ∈ fs
  | [], out, x, h => by cases out <;> simp [AWorld.cellsDyn] at h
  | f :: fs, [], x, h => by cases f <;> simp [AWorld.cellsDyn] at h
  | f :: fs, o :: out, x, h => by
    cases f with
    | ecsId => exact List.mem_cons_of_mem _ (cellsDyn_mem fs out x h)
    | immut c => exact List.mem_cons_of_mem _ (cellsDyn_mem fs out x h)
    | «mut» c =>
      cases o with
      | none => exact List.mem_cons_of_mem _ (cellsDyn_mem fs out x h)
      | some bs =>
        rcases List.mem_cons.1 h with rfl | h
        · exact List.mem_cons_self
        · exact List.mem_cons_of_mem _ (cellsDyn_mem fs out x h)

/-- One loop, from the point of view of one component. -/
theorem runDyn_other {a : AWorld} {fs : List Fetch} {f : List AWorld.Seen → List (Option Bytes)} {c : EcsId} (h : .mut c ∉ fs) (e : EcsId) :
    (a.runDyn fs f).cell e c = a.cell e c := by
  simp only [AWorld.runDyn, AWorld.each]
  cases a.rowDyn fs e with
  | none => rfl
  | some ss =>
    refine storeAll_other e c _ a (fun x hx hh => h ?_)
    rw [← hh]
    exact cellsDyn_mem _ _ _ hx

theorem runDyn_row {a b : AWorld} {fs : List Fetch} (hi : a.info = b.info) {e : EcsId} (h : ∀ c, Touches fs c → a.cell e c = b.cell e c) : a.rowDyn fs e = b.rowDyn fs e := by
  unfold AWorld.rowDyn
  rw [hi]
  split
  · have : ∀ gs : List Fetch, (∀ f ∈ gs, f ∈ fs) → gs.mapM (a.seenDyn e) = gs.mapM (b.seenDyn e) := by
      intro gs
      induction gs with
      | nil => intro _; rfl
      | cons g gs ih =>
        intro hg
        have hgm := hg g List.mem_cons_self
        have : a.seenDyn e g = b.seenDyn e g := by
          cases g with
          | ecsId => rfl
          | «mut» c => simp only [AWorld.seenDyn, h c ⟨_, hgm, Or.inl rfl⟩]
          | immut c => simp only [AWorld.seenDyn, h c ⟨_, hgm, Or.inr rfl⟩]
        simp only [List.mapM_cons, this, ih (fun f hf => hg f (List.mem_cons_of_mem _ hf))]
    exact this fs (fun _ h => h)
  · rfl

theorem rowDyn_none {a : AWorld} {fs : List Fetch} {c : EcsId} (ht : Touches fs c) {e : EcsId} (h : a.cell e c = none) : a.rowDyn fs e = none := by
  obtain ⟨f, hf, hc⟩ := ht
  unfold AWorld.rowDyn
  split
  · have hs : a.seenDyn e f = none := by
      rcases hc with rfl | rfl <;> simp only [AWorld.seenDyn, h] <;> rfl
    revert hf
    induction fs with
    | nil => intro hf; cases hf
    | cons g fs ih =>
      intro hf
      rw [List.mapM_cons]
      rcases List.mem_cons.1 hf with rfl | hf
      · rw [hs]; rfl
      · rw [ih hf]
        cases a.seenDyn e g <;> rfl
  · rfl

theorem runDyn_id {a : AWorld} {fs : List Fetch} {f : List AWorld.Seen → List (Option Bytes)} {c : EcsId} (ht : Touches fs c) (h : ∀ e, a.cell e c = none) :
    a.runDyn fs f = a := by
  simp only [AWorld.runDyn, AWorld.each, fun e => rowDyn_none ht (h e)]

theorem runDyn_comm {a : AWorld} {fs gs : List Fetch} {f g : List AWorld.Seen → List (Option Bytes)}
    (h1 : ∀ c, .mut c ∈ fs → Touches gs c → ∀ e, a.cell e c = none) (h2 : ∀ c, .mut c ∈ gs → Touches fs c → ∀ e, a.cell e c = none) :
    (a.runDyn fs f).runDyn gs g = (a.runDyn gs g).runDyn fs f := by
  by_cases hA : ∃ c, .mut c ∈ fs ∧ Touches gs c
  · obtain ⟨c, hc, ht⟩ := hA
    have := h1 c hc ht
    rw [runDyn_id (f := f) ⟨_, hc, Or.inl rfl⟩ this, runDyn_id (f := g) ht this, runDyn_id (f := f) ⟨_, hc, Or.inl rfl⟩ this]
  by_cases hB : ∃ c, .mut c ∈ gs ∧ Touches fs c
  · obtain ⟨c, hc, ht⟩ := hB
    have := h2 c hc ht
    rw [runDyn_id (f := f) ht this, runDyn_id (f := g) ⟨_, hc, Or.inl rfl⟩ this, runDyn_id (f := f) ht this]
  have r1 : ∀ e, (a.runDyn fs f).rowDyn gs e = a.rowDyn gs e := fun e =>
    runDyn_row (a := a.runDyn fs f) (b := a) rfl (fun c hc => runDyn_other (fun hm => hA ⟨c, hm, hc⟩) e)
  have r2 : ∀ e, (a.runDyn gs g).rowDyn fs e = a.rowDyn fs e := fun e =>
    runDyn_row (a := a.runDyn gs g) (b := a) rfl (fun c hc => runDyn_other (fun hm => hB ⟨c, hm, hc⟩) e)
  have key : ∀ e c, ((a.runDyn fs f).runDyn gs g).cell e c = ((a.runDyn gs g).runDyn fs f).cell e c := by
    intro e c
    by_cases hm : .mut c ∈ fs
    · have hg : .mut c ∉ gs := fun hh => hA ⟨c, hm, _, hh, Or.inl rfl⟩
      rw [runDyn_other hg]
      simp only [AWorld.runDyn, AWorld.each]
      have := r2 e
      simp only [AWorld.runDyn, AWorld.each] at this
      rw [this]
      have ho := runDyn_other (a := a) (f := g) hg e
      simp only [AWorld.runDyn, AWorld.each] at ho
      cases hr : a.rowDyn fs e with
      | none => exact ho.symm
      | some ss =>
        refine storeAll_cell e c _ _ _ ?_
        exact ho.symm
    · rw [runDyn_other (fs := fs) hm]
      simp only [AWorld.runDyn, AWorld.each]
      have := r1 e
      simp only [AWorld.runDyn, AWorld.each] at this
      rw [this]
      have ho := runDyn_other (a := a) (f := f) hm e
      simp only [AWorld.runDyn, AWorld.each] at ho
      cases hr : a.rowDyn gs e with
      | none => exact ho
      | some ss =>
        refine storeAll_cell e c _ _ _ ?_
        exact ho
  have hcell : ((a.runDyn fs f).runDyn gs g).cell = ((a.runDyn gs g).runDyn fs f).cell := funext fun e => funext fun c => key e c
  show ({ a with cell := ((a.runDyn fs f).runDyn gs g).cell } : AWorld) = { a with cell := ((a.runDyn gs g).runDyn fs f).cell }
  rw [hcell]

theorem row_unbound {w : World} {b : AWorld} (hb : b.types = w.typeMap) {ps : List Param} (h : allFetches w ps = none) (e : EcsId) : b.row ps e = none := by
  cases hr : b.row ps e with
  | none => rfl
  | some ss =>
    exfalso
    unfold AWorld.row at hr
    split at hr
    · obtain ⟨fs, g⟩ := bound_of (w := w) (ps := ps) (fun p hp t ht hn => by
        have hs : b.seen e p = none := by
          rcases ht with rfl | rfl <;> simp only [AWorld.seen, hb, hn] <;> rfl
        have : ∀ ps : List Param, p ∈ ps → ps.mapM (b.seen e) = none := by
          intro ps
          induction ps with
          | nil => intro hf; cases hf
          | cons g ps ih =>
            intro hf
            rw [List.mapM_cons]
            rcases List.mem_cons.1 hf with rfl | hf
            · rw [hs]; rfl
            · rw [ih hf]
              cases b.seen e g <;> rfl
        rw [this ps hp] at hr; cases hr)
      rw [allFetches_bound.2 g] at h; cases h
    · cases hr

theorem pass_plan {w : World} {a : AWorld} (ha : w.Shows a) {j : Job Unit} {d : Plan Unit} (h : PlanOf w a j d) :
    ∃ f, ∀ b : AWorld, b.types = a.types → j.pass b = b.runDyn d.fs f := by
  have hf := h.fetches
  cases j with
  | dyn fs body x =>
    simp only at hf
    subst hf
    exact ⟨fun ss => (body () ss).2, fun b _ => rfl⟩
  | static ps body x =>
    simp only at hf
    refine ⟨fun ss => (body () ss).2, fun b hb => ?_⟩
    rcases hf with hf | ⟨hf, hn⟩
    · simp only [Job.pass, AWorld.run, AWorld.runDyn, row_bound (hb.trans ha.types) hf, cells_bound (hb.trans ha.types) hf]
    · rw [hf]
      simp only [Job.pass, AWorld.run, AWorld.each, row_unbound (hb.trans ha.types) hn]
      have : ∀ c : EcsId, .mut c ∉ ([] : List Fetch) := fun c hc => by cases hc
      show b = { b with cell := (b.runDyn [] _).cell }
      have hc : (b.runDyn [] (fun ss => (body () ss).2)).cell = b.cell := funext fun e => funext fun c => runDyn_other (this c) e
      rw [hc]

end Ellecs.WorldSpec
