import Verif.Spec.System
import Verif.Props.Safe
import Verif.Props.Refine
import Verif.Props.Locks
import Verif.Props.Entity
/-!
# Loops over queries
-/
namespace Ellecs.WorldSpec
open World

/-! ## Storing -/

theorem writePtr_locks {w w' : World} {p : Ptr} {bs : Bytes} (ls : List RwLock) (h : w.writePtr p bs = .ok w') :
    ({ w with locks := ls } : World).writePtr p bs = .ok { w' with locks := ls } := by
  unfold writePtr at *
  split
  · rename_i k j hp
    rw [hp] at h
    simp only at h ⊢
    split
    · rename_i ha; rw [ha] at h; cases h
    · rename_i a ha
      rw [ha] at h
      simp only at h ⊢
      split
      · rename_i hj; rw [hj] at h; cases h
      · rename_i s hj
        rw [hj] at h
        simp only at h ⊢
        split
        · rename_i hz
          rw [if_pos hz] at h
          injection h with h; subst h; rfl
        · rename_i hz
          rw [if_neg hz] at h
          split
          · rename_i hb
            rw [if_pos hb] at h
            injection h with h; subst h; rfl
          · rename_i hb
            rw [if_neg hb] at h; cases h
  · rename_i hp
    split at h
    · rename_i k j hp'; exact absurd hp' (hp k j)
    · cases h

/-- One value: the same world is reached by `get_component_mut_dynamic` and a write. -/
theorem store_one {u : World} {a : AWorld} (hu : Reachable u) (ha : u.Shows a) {p : Ptr} {e c : EcsId} (hp : u.PointsAt p e c) {m : ComponentMeta}
    (hm : u.InfoIs c m) {bs : Bytes} (hb : bs.length = m.layout.size) :
    ∃ u', u.writePtr p bs = .ok u' ∧ Reachable u' ∧ (SameShape u u' ∧ u'.locks = u.locks) ∧
      u'.Shows { a with cell := fun x y => if x = e ∧ y = c then some bs else a.cell x y } := by
  have h := hu.sound.inv
  obtain ⟨u', d1, d2⟩ := writePtr_spec h hp hm hb
  obtain ⟨_, _, _, _, _, _, _, _, _, _, _, _, _, hh⟩ := hp.cell h
  refine ⟨u', d1, ?_, ⟨blank_write d1, d2.locks⟩, ?_⟩
  · obtain ⟨p', g1, g2⟩ := (C12_get_component_partial hu (e := e) (c := c)).1 ⟨_, hh⟩
    have := g2.uniq h hp
    subst this
    have hx : Call.exec (.write e c bs) u = .ok () u' := by
      unfold Call.exec
      simp only [bind, EStateM.bind, get, getThe, MonadStateOf.get, EStateM.get, g1, liftE, World.step, d1]
    refine .ok (.write e c bs) hu (fun m' hm' => ?_) hx ?_
    · obtain ⟨_, q1⟩ := hm
      obtain ⟨_, q2⟩ := hm'
      rw [q1] at q2
      cases q2
      exact hb
    · unfold NoFullSlot; rw [d2.ent]; exact hu.sound.nowrap
  · refine ⟨ha.ents.trans d2.ent.symm, ha.types.trans d2.typ.symm, ?_, ?_, ?_, shows_lock ?_⟩
    · intro x m'
      exact (ha.info x m').trans (infoIs_congr h d2.inv d2.row (fun i => by rw [d2.metas]) x m').symm
    · intro x y bs'
      simp only
      by_cases hx : x = e ∧ y = c
      · obtain ⟨rfl, rfl⟩ := hx
        rw [d2.self, if_pos ⟨rfl, rfl⟩]
        simp only [Option.some.injEq]; exact eq_comm
      · rw [if_neg hx, d2.others x y (by
          by_cases h1 : x = e
          · exact Or.inr (fun h2 => hx ⟨h1, h2⟩)
          · exact Or.inl h1)]
        exact ha.cell x y bs'
    · intro x
      rw [ha.used]
      exact ⟨used_ids d2.ids, fun hh => (used_ids_iff d2.ids x).1 hh⟩
    · intro x
      simp only
      rw [ha.lockOf]
      unfold lockOf
      rw [d2.look, d2.locks]

theorem SameShape.trans {u v w : World} (h : SameShape u v) (h' : SameShape v w) : SameShape u w := Eq.trans h h'

theorem sameShape_types {w u : World} (h : SameShape w u) : u.typeMap = w.typeMap :=
  (congrArg World.typeMap (show w.blank = u.blank from h)).symm

/-- What is stored where. -/
def Store (u : World) (a : AWorld) (e : EcsId) (t : Ptr × Bytes) (c : EcsId × Bytes) : Prop :=
  t.2 = c.2 ∧ u.PointsAt t.1 e c.1 ∧ ∃ m, a.info c.1 = some m ∧ c.2.length = m.layout.size

/-- The values of a row. -/
theorem storeAll_spec {e : EcsId} (ts : List (Ptr × Bytes)) : ∀ {cs : List (EcsId × Bytes)} {u : World} {a : AWorld}, Reachable u → u.Shows a →
    Pairs (Store u a e) ts cs →
    ∃ u', (∀ ls, ({ u with locks := ls } : World).storeAll ts = .ok { u' with locks := ls }) ∧ Reachable u' ∧ (SameShape u u' ∧ u'.locks = u.locks) ∧
      u'.Shows (a.storeAll e cs) := by
  induction ts with
  | nil =>
    intro cs u a hu ha hp
    cases hp
    exact ⟨u, fun _ => rfl, hu, ⟨rfl, rfl⟩, ha⟩
  | cons t ts ih =>
    intro cs u a hu ha hp
    cases hp with
    | @cons _ c _ cs h1 hp =>
    obtain ⟨p, bs⟩ := t
    obtain ⟨c, bs'⟩ := c
    obtain ⟨h0, h2, m, h3, h4⟩ := h1
    simp only at h0 h2 h3 h4
    subst h0
    obtain ⟨u1, g1, g2, ⟨g3, g5⟩, g4⟩ := store_one hu ha h2 ((ha.info c m).1 h3) h4
    obtain ⟨u', k1, k2, ⟨k3, k5⟩, k4⟩ := ih (cs := cs) g2 g4 (by
      refine hp.imp ?_
      rintro t c _ ⟨q1, q2, q3⟩
      exact ⟨q1, SameShape.pointsAt g3 q2, q3⟩)
    refine ⟨u', ?_, k2, ⟨SameShape.trans g3 k3, k5.trans g5⟩, k4⟩
    intro ls
    unfold storeAll
    rw [writePtr_locks ls g1]
    exact k1 ls

/-! ## Iterators -/

theorem Produces.head {σ α : Type} {next : σ → Except Fault (Option α × σ)} {s : σ} {x : α} {xs : List α} (h : Produces next s (x :: xs)) :
    ∃ s', next s = .ok (some x, s') ∧ Produces next s' xs := by
  have h1 := h 1
  unfold callN at h1
  cases hn : next s with
  | error f => rw [hn] at h1; cases h1
  | ok r =>
    obtain ⟨y, s'⟩ := r
    rw [hn] at h1
    simp [callN] at h1
    subst h1
    refine ⟨s', rfl, fun n => ?_⟩
    have h2 := h (n + 1)
    unfold callN at h2
    rw [hn] at h2
    simp only [List.map_cons, List.take_succ_cons, List.length_cons, Nat.add_sub_add_right, List.cons_append] at h2
    cases hc : callN next n s' with
    | error f => rw [hc] at h2; cases h2
    | ok ys =>
      rw [hc] at h2
      injection h2 with h2
      injection h2 with _ h2
      rw [h2]

theorem Produces.stop {σ α : Type} {next : σ → Except Fault (Option α × σ)} {s : σ} (h : Produces next s []) : ∃ s', next s = .ok (none, s') := by
  have h1 := h 1
  unfold callN at h1
  cases hn : next s with
  | error f => rw [hn] at h1; cases h1
  | ok r =>
    obtain ⟨y, s'⟩ := r
    rw [hn] at h1
    simp [callN] at h1
    subst h1
    exact ⟨s', rfl⟩

/-! ## Loops -/

theorem storeAll_info (e : EcsId) (cs : List (EcsId × Bytes)) : ∀ a : AWorld, (a.storeAll e cs).info = a.info ∧ (a.storeAll e cs).types = a.types ∧
    ∀ x, x ≠ e → (a.storeAll e cs).cell x = a.cell x := by
  induction cs with
  | nil => exact fun a => ⟨rfl, rfl, fun _ _ => rfl⟩
  | cons c cs ih =>
    intro a
    obtain ⟨c, bs⟩ := c
    obtain ⟨h1, h2, h3⟩ := ih { a with cell := fun x y => if x = e ∧ y = c then some bs else a.cell x y }
    refine ⟨h1, h2, fun x hx => (h3 x hx).trans ?_⟩
    funext y
    exact if_neg (fun h => hx h.1)

/-- A loop over any iterator whose rows show and store what they are meant to. -/
theorem forEach_spec {σ ρ τ : Type} {next : World → σ → Except Fault (Option ρ × σ)} {see : World → ρ → Except Fault (List AWorld.Seen)}
    {target : ρ → List (Option Bytes) → List (Ptr × Bytes)} {body : Body τ} {w : World} {ls : List RwLock} {a0 : AWorld}
    {row : AWorld → EcsId → Option (List AWorld.Seen)} {cells : List (Option Bytes) → List (EcsId × Bytes)} {R : EcsId → ρ → Prop}
    (hnext : ∀ u : World, SameShape w u → ∀ s, next u s = next w s)
    (hsee : ∀ (u : World) (a : AWorld) (e : EcsId) (r : ρ), Reachable u → u.Shows a → SameShape w u → R e r →
      ∃ ss, see { u with locks := ls } r = .ok ss ∧ row a e = some ss)
    (htgt : ∀ (u : World) (a : AWorld) (e : EcsId) (r : ρ) (x : τ) (ss : List AWorld.Seen), Reachable u → u.Shows a → SameShape w u → a.info = a0.info → R e r →
      Pairs (Store u a e) (target r (body x ss).2) (cells (body x ss).2))
    (hrow : ∀ (a : AWorld) (e x : EcsId) (cs : List (EcsId × Bytes)), x ≠ e → row (a.storeAll e cs) x = row a x) {es : List EcsId} {rows : List ρ}
    (hp : Pairs R es rows) : ∀ {u : World} {a : AWorld} {s : σ} (x : τ), es.Nodup → Reachable u → u.Shows a → SameShape w u → a.info = a0.info →
    (∀ e ∈ es, row a e = row a0 e) → Produces (fun s => next w s) s rows →
    ∃ u', ForEach next see target body { u with locks := ls } s x { u' with locks := ls } (AWorld.sweep (row a0) cells body es a x).2 ∧
      Reachable u' ∧ (SameShape w u' ∧ u'.locks = u.locks) ∧ u'.Shows (AWorld.sweep (row a0) cells body es a x).1 := by
  induction hp with
  | nil =>
    intro u a s x _ hu ha hs _ _ hpr
    obtain ⟨s', h1⟩ := Produces.stop hpr
    refine ⟨u, .done (s' := s') ?_, hu, ⟨hs, rfl⟩, ha⟩
    rw [hnext _ (show SameShape w { u with locks := ls } from hs), h1]
  | @cons e r es rows hr _ ih =>
    intro u a s x hnd hu ha hs hinfo hrows hpr
    obtain ⟨s', h1, h2⟩ := Produces.head hpr
    obtain ⟨ss, h3, h4⟩ := hsee u a e r hu ha hs hr
    obtain ⟨u1, k1, k2, ⟨k3, k5⟩, k4⟩ := storeAll_spec _ hu ha (htgt u a e r x ss hu ha hs hinfo hr)
    rw [List.nodup_cons] at hnd
    have h5 : row a0 e = some ss := by rw [← hrows e List.mem_cons_self]; exact h4
    obtain ⟨u', f1, f2, ⟨f3, f5⟩, f4⟩ := ih (body x ss).1 hnd.2 k2 k4 (SameShape.trans hs k3) ((storeAll_info e _ a).1.trans hinfo)
      (fun e' he' => by rw [hrow a e e' _ (fun hh => hnd.1 (hh ▸ he')), hrows e' (List.mem_cons_of_mem _ he')]) h2
    refine ⟨u', ?_, f2, ⟨f3, f5.trans k5⟩, ?_⟩
    · unfold AWorld.sweep
      simp only [h5]
      exact .row (by rw [hnext _ (show SameShape w { u with locks := ls } from hs), h1]) h3 (k1 ls) f1
    · unfold AWorld.sweep
      simp only [h5]
      exact f4

/-! ## Static queries -/

theorem sameShape_denotes {w u : World} (h : SameShape w u) {e : EcsId} {p : Param} {i : Item} (hd : Denotes w e p i) : Denotes u e p i := by
  cases p with
  | ids => exact hd
  | «mut» t =>
    obtain ⟨q, c, h1, h2, h3⟩ := hd
    exact ⟨q, c, h1, by rw [sameShape_types h]; exact h2, SameShape.pointsAt h h3⟩
  | ref t =>
    obtain ⟨q, c, h1, h2, h3⟩ := hd
    exact ⟨q, c, h1, by rw [sameShape_types h]; exact h2, SameShape.pointsAt h h3⟩

theorem targets_spec {u : World} {a : AWorld} (hi : Inv u) (ha : u.Shows a) {e : EcsId} {ps : List Param} {is : List Item}
    (hd : Pairs (Denotes u e) ps is) : ∀ {out : List (Option Bytes)},
    (∀ (i : Nat) (t : Ty) (bs : Bytes), ps[i]? = some (.mut t) → out[i]? = some (some bs) → bs.length = t.size) →
    Pairs (Store u a e) (targets is out) (a.cells ps out) := by
  induction hd with
  | nil => intro out _; cases out <;> exact .nil
  | @cons p i ps is h1 _ ih =>
    intro out ho
    cases out with
    | nil => cases p <;> cases i <;> exact .nil
    | cons o out =>
      have ih' := ih (out := out) (fun i t bs h1 h2 => ho (i + 1) t bs h1 h2)
      cases p with
      | ids =>
        have : i = .id e := h1
        subst this
        exact ih'
      | ref t =>
        obtain ⟨q, c, rfl, _⟩ := h1
        exact ih'
      | «mut» t =>
        obtain ⟨q, c, rfl, hc, hp⟩ := h1
        cases o with
        | none => exact ih'
        | some bs =>
          obtain ⟨_, _, _, _, _, _, _, _, _, _, _, _, _, hh⟩ := hp.cell hi
          unfold targets AWorld.cells
          rw [ha.types, hc]
          exact .cons ⟨rfl, hp, _, (ha.info _ _).2 (typed_info' hi hc hh), ho 0 t bs rfl rfl⟩ ih'

theorem cells_types {a b : AWorld} (h : a.types = b.types) : ∀ (ps : List Param) (out : List (Option Bytes)), a.cells ps out = b.cells ps out := by
  intro ps
  induction ps with
  | nil => intro out; cases out <;> rfl
  | cons p ps ih =>
    intro out
    cases out with
    | nil => cases p <;> rfl
    | cons o out =>
      cases p <;> cases o <;> first | exact ih out | (unfold AWorld.cells; rw [h]; split <;> simp only [ih out])

theorem row_frame {a : AWorld} {e x : EcsId} {cs : List (EcsId × Bytes)} (hx : x ≠ e) (ps : List Param) : (a.storeAll e cs).row ps x = a.row ps x := by
  obtain ⟨h1, h2, h3⟩ := storeAll_info e cs a
  have : (a.storeAll e cs).seen x = a.seen x := by
    funext p
    unfold AWorld.seen
    rw [h2, h3 x hx]
  unfold AWorld.row
  rw [h1, this]

theorem rowDyn_frame {a : AWorld} {e x : EcsId} {cs : List (EcsId × Bytes)} (hx : x ≠ e) (fs : List Fetch) : (a.storeAll e cs).rowDyn fs x = a.rowDyn fs x := by
  obtain ⟨h1, h2, h3⟩ := storeAll_info e cs a
  have : (a.storeAll e cs).seenDyn x = a.seenDyn x := by
    funext p
    unfold AWorld.seenDyn
    rw [h3 x hx]
  unfold AWorld.rowDyn
  rw [h1, this]

/-! ## Dynamic queries -/

theorem sameShape_fetchAt {w u : World} (h : SameShape w u) {e : EcsId} {f : Fetch} {p : Ptr} (hd : FetchAt w e f p) : FetchAt u e f p :=
  SameShape.fetchAt h hd

theorem targetsDyn_spec {u : World} {a a0 : AWorld} (hi : Inv u) (ha : u.Shows a) (h0 : a.info = a0.info) {e : EcsId} {fs : List Fetch} {is : List Ptr}
    (hd : Pairs (FetchAt u e) fs is) : ∀ {out : List (Option Bytes)},
    (∀ (i : Nat) (c : EcsId) (m : ComponentMeta) (bs : Bytes), fs[i]? = some (.mut c) → a0.info c = some m → out[i]? = some (some bs) → bs.length = m.layout.size) →
    Pairs (Store u a e) (targetsDyn fs is out) (AWorld.cellsDyn fs out) := by
  induction hd with
  | nil => intro out _; cases out <;> exact .nil
  | @cons f p fs is h1 _ ih =>
    intro out ho
    cases out with
    | nil => cases f <;> exact .nil
    | cons o out =>
      have ih' := ih (out := out) (fun i c m bs h1 h2 h3 => ho (i + 1) c m bs h1 h2 h3)
      cases f with
      | ecsId => exact ih'
      | immut c => exact ih'
      | «mut» c =>
        cases o with
        | none => exact ih'
        | some bs =>
          have hp : u.PointsAt p e c := h1
          obtain ⟨_, _, _, _, _, _, _, _, _, _, _, _, _, hh⟩ := hp.cell hi
          obtain ⟨aa, a1, a2⟩ := has_used hi hh
          obtain ⟨hlc, mc, hmc⟩ := hi.live_comp a1 a2
          have q2 : u.InfoIs c mc := by
            refine (infoIs_iff hi).2 ⟨?_, hmc⟩
            apply Classical.byContradiction
            intro hr
            have := (hi.inst_none hlc).2 hr
            rw [inst_none_iff_comp, hmc] at this; cases this
          have q3 := (ha.info _ _).2 q2
          exact .cons ⟨rfl, hp, mc, q3, ho 0 c mc bs rfl (by rw [← h0]; exact q3) rfl⟩ ih'

/-! ## Bodies without memory -/

theorem storeAll_eq (e : EcsId) (cs : List (EcsId × Bytes)) : ∀ a : AWorld, ∃ cell', a.storeAll e cs = { a with cell := cell' } ∧ ∀ x, x ≠ e → cell' x = a.cell x := by
  induction cs with
  | nil => exact fun a => ⟨a.cell, rfl, fun _ _ => rfl⟩
  | cons c cs ih =>
    intro a
    obtain ⟨c, bs⟩ := c
    obtain ⟨cell', h1, h2⟩ := ih { a with cell := fun x y => if x = e ∧ y = c then some bs else a.cell x y }
    refine ⟨cell', h1, fun x hx => (h2 x hx).trans ?_⟩
    funext y
    exact if_neg (fun h => hx h.1)

theorem storeAll_congr (e : EcsId) (cs : List (EcsId × Bytes)) : ∀ {a b : AWorld}, a.cell e = b.cell e → (a.storeAll e cs).cell e = (b.storeAll e cs).cell e := by
  induction cs with
  | nil => exact fun h => h
  | cons c cs ih =>
    intro a b h
    refine ih ?_
    funext y
    simp only [h]

/-- What `sweep` leaves in the cells of an entity. -/
theorem sweep_cell {row : EcsId → Option (List AWorld.Seen)} {cells : List (Option Bytes) → List (EcsId × Bytes)} {f : List AWorld.Seen → List (Option Bytes)}
    (es : List EcsId) : ∀ (a : AWorld), es.Nodup → ∃ cell', (AWorld.sweep row cells (fun (_ : Unit) ss => ((), f ss)) es a ()).1 = { a with cell := cell' } ∧
      (∀ e, e ∉ es → cell' e = a.cell e) ∧
      ∀ e ∈ es, cell' e = match row e with | none => a.cell e | some ss => (a.storeAll e (cells (f ss))).cell e := by
  induction es with
  | nil => exact fun a _ => ⟨a.cell, rfl, fun _ _ => rfl, fun _ h => nomatch h⟩
  | cons e es ih =>
    intro a hnd
    rw [List.nodup_cons] at hnd
    unfold AWorld.sweep
    cases hr : row e with
    | none =>
      simp only
      obtain ⟨cell', h1, h2, h3⟩ := ih a hnd.2
      refine ⟨cell', h1, fun x hx => h2 x (fun hh => hx (List.mem_cons_of_mem _ hh)), fun x hx => ?_⟩
      rcases List.mem_cons.1 hx with rfl | hx
      · rw [h2 x hnd.1, hr]
      · exact h3 x hx
    | some ss =>
      simp only
      obtain ⟨c1, k1, k2⟩ := storeAll_eq e (cells (f ss)) a
      obtain ⟨cell', h1, h2, h3⟩ := ih (a.storeAll e (cells (f ss))) hnd.2
      refine ⟨cell', by rw [h1, k1], fun x hx => ?_, fun x hx => ?_⟩
      · rw [h2 x (fun hh => hx (List.mem_cons_of_mem _ hh)), k1]
        exact k2 x (fun hh => hx (hh ▸ List.mem_cons_self))
      · rcases List.mem_cons.1 hx with rfl | hx
        · rw [h2 x hnd.1, hr]
        · have hne : x ≠ e := fun hh => hnd.1 (hh ▸ hx)
          have hc : (a.storeAll e (cells (f ss))).cell x = a.cell x := by rw [k1]; exact k2 x hne
          rw [h3 x hx]
          cases row x with
          | none => exact hc
          | some s2 => exact storeAll_congr x _ hc

theorem sweep_each {row : EcsId → Option (List AWorld.Seen)} {cells : List (Option Bytes) → List (EcsId × Bytes)} {f : List AWorld.Seen → List (Option Bytes)}
    {es : List EcsId} (a : AWorld) (hn : es.Nodup) (he : ∀ e, e ∈ es ↔ (row e).isSome = true) :
    (AWorld.sweep row cells (fun (_ : Unit) ss => ((), f ss)) es a ()).1 = a.each row cells f := by
  obtain ⟨cell', h1, h2, h3⟩ := sweep_cell (row := row) (cells := cells) (f := f) es a hn
  rw [h1]
  unfold AWorld.each
  congr 1
  funext e c
  by_cases hm : e ∈ es
  · rw [h3 e hm]
    cases row e <;> rfl
  · rw [h2 e hm]
    have : row e = none := by
      cases hr : row e with
      | none => rfl
      | some ss => exact absurd ((he e).2 (by rw [hr]; rfl)) hm
    rw [this]

/-- The same for one entity, when the body passes on its memory. -/
theorem sweep_result {τ : Type} {row : EcsId → Option (List AWorld.Seen)} {cells : List (Option Bytes) → List (EcsId × Bytes)} {f : List AWorld.Seen → List (Option Bytes)}
    (es : List EcsId) (a : AWorld) (x : τ) (hn : es.Nodup) {e : EcsId} (he : e ∈ es) {ss : List AWorld.Seen} (hr : row e = some ss) :
    (AWorld.sweep row cells (fun x ss => (x, f ss)) es a x).1.cell e = (a.storeAll e (cells (f ss))).cell e := by
  have key : ∀ (es : List EcsId) (a : AWorld), (AWorld.sweep row cells (fun (x : τ) ss => (x, f ss)) es a x).1 =
      (AWorld.sweep row cells (fun (_ : Unit) ss => ((), f ss)) es a ()).1 := by
    intro es
    induction es with
    | nil => intro a; rfl
    | cons e es ih =>
      intro a
      unfold AWorld.sweep
      cases row e with
      | none => exact ih a
      | some ss => exact ih _
  rw [key]
  obtain ⟨cell', h1, _, h3⟩ := sweep_cell (row := row) (cells := cells) (f := f) es a hn
  rw [h1]
  simp only
  rw [h3 e he, hr]

theorem sameShape_row {w u : World} (h : SameShape w u) {e : EcsId} (hr : w.Row e) : u.Row e := by
  obtain ⟨k, r, a, h1, h2⟩ := hr
  have hb : w.archetypes.map World.Archetype.blank = u.archetypes.map World.Archetype.blank := congrArg World.archetypes (show w.blank = u.blank from h)
  have h3 : (u.archetypes.map World.Archetype.blank)[k]? = some (World.Archetype.blank a) := by rw [← hb, List.getElem?_map, h1]; rfl
  rw [List.getElem?_map] at h3
  cases hu : u.archetypes[k]? with
  | none => rw [hu] at h3; cases h3
  | some b =>
    rw [hu] at h3
    injection h3 with h3
    refine ⟨k, r, b, hu, ?_⟩
    have : (World.Archetype.blank b).entities = (World.Archetype.blank a).entities := by rw [h3]
    have : b.entities = a.entities := this
    rw [this, h2]

theorem ForEach.det {σ ρ τ : Type} {next : World → σ → Except Fault (Option ρ × σ)} {see : World → ρ → Except Fault (List AWorld.Seen)}
    {target : ρ → List (Option Bytes) → List (Ptr × Bytes)} {body : Body τ} {w w1 w2 : World} {s : σ} {x z1 z2 : τ}
    (h1 : ForEach next see target body w s x w1 z1) (h2 : ForEach next see target body w s x w2 z2) : w1 = w2 ∧ z1 = z2 := by
  induction h1 with
  | done h =>
    cases h2 with
    | done _ => exact ⟨rfl, rfl⟩
    | row h' _ _ _ => rw [h] at h'; cases h'
  | row a b c _ ih =>
    cases h2 with
    | done h' => rw [a] at h'; cases h'
    | row a' b' c' d' =>
      rw [a] at a'; cases a'
      rw [b] at b'; cases b'
      rw [c] at c'; cases c'
      exact ih d'

/-! ## The locks -/

theorem acquire_lookup {w u : World} (h : u.lockLookup = w.lockLookup) (f : Fetch) (ls : List RwLock) :
    f.acquireStatic u ls = f.acquireStatic w ls ∧ f.acquireDyn u ls = f.acquireDyn w ls := by
  cases f <;> simp only [Fetch.acquireStatic, Fetch.acquireDyn, h, and_self]

theorem sameShape_lookup {w u : World} (h : SameShape w u) : u.lockLookup = w.lockLookup :=
  (congrArg World.lockLookup (show w.blank = u.blank from h)).symm

theorem lockStep_shape {w u : World} (h : u.lockLookup = w.lockLookup) {ls ls' : List RwLock} {qs qs' : List LiveQuery}
    (hs : LockStep w ls qs ls' qs') : LockStep u ls qs ls' qs' := by
  cases hs with
  | create fs => exact .create fs
  | acquire hh => exact .acquire (by rw [(acquire_lookup h _ _).1, (acquire_lookup h _ _).2]; exact hh)
  | fail hh he => exact .fail (by rw [(acquire_lookup h _ _).1, (acquire_lookup h _ _).2]; exact hh) he
  | close p => exact .close p
  | release => exact .release
  | gone => exact .gone

theorem lockRun_shape {w u : World} (h : SameShape w u) (hl : u.locks = w.locks) {ls : List RwLock} {qs : List LiveQuery} (hr : LockRun w ls qs) :
    LockRun u ls qs := by
  unfold LockRun at *
  rw [hl]
  revert hr
  generalize w.locks = l0
  generalize ([] : List LiveQuery) = q0
  intro hr
  induction hr with
  | refl => exact .refl _ _
  | step _ h2 ih => exact .step ih (lockStep_shape (sameShape_lookup h) h2)

end Ellecs.WorldSpec
