import Verif.Proofs.Locks
/-! # What holds after every history -/
namespace Ellecs
namespace World

theorem owed_eq (m : ComponentMeta) (bs : Bytes) : owed m bs = UVec.dropEvs m.info [bs] := by
  unfold owed UVec.dropEvs ComponentMeta.info
  cases m.dropFn <;> rfl

theorem actOwes_iff {w : World} (h : Inv w) {a : BAct} {id : EcsId} {v : Bytes} {m : ComponentMeta} (hg : Gives w a id v) (hm : w.InfoIs id m)
    (g : List DropEv) : ActOwes w a g ↔ g = UVec.dropEvs m.info [v] := by
  cases a with
  | «with» t x =>
    obtain ⟨h1, rfl⟩ := hg
    obtain ⟨hr, hc⟩ := (infoIs_iff h).1 hm
    have := h.type.comp t id h1 (h.row_live hr)
    rw [hc] at this
    injection this with this
    subst this
    rw [dropEvs_generic]
    exact Iff.rfl
  | withDynamic x =>
    obtain ⟨rfl, rfl⟩ := hg
    constructor
    · rintro ⟨m', h1, rfl⟩
      rw [h1.uniq hm, owed_eq]
    · rintro rfl
      exact ⟨m, hm, (owed_eq _ _).symm⟩
  | withDynamicWithData x src =>
    obtain ⟨rfl, m', h1, rfl⟩ := hg
    have := h1.uniq hm
    subst this
    constructor
    · rintro ⟨m'', h2, rfl⟩
      rw [h2.uniq h1, owed_eq]
    · rintro rfl
      exact ⟨m', h1, (owed_eq _ _).symm⟩
  | build => exact hg.elim

theorem actsOwe_iff {w : World} (h : Inv w) {as : List BAct} {vals : List (EcsId × Bytes)} (ha : ActVals w as vals) (hv : ValsOk w vals)
    (g : List DropEv) : ActsOwe w as g ↔ g = valEvs w vals := by
  induction as generalizing vals g with
  | nil =>
    cases ha
    exact Iff.rfl
  | cons a as ih =>
    obtain ⟨id, v, vs', rfl, h2, h3⟩ := ha
    obtain ⟨m, hm, _⟩ := (valsOk_iff.1 hv) (id, v) List.mem_cons_self
    have hv' : ValsOk w vs' := fun p hp => hv p (List.mem_cons_of_mem _ hp)
    have hcomp := ((infoIs_iff h).1 hm).2
    have heq : valEvs w ((id, v) :: vs') = UVec.dropEvs m.info [v] ++ valEvs w vs' := by
      unfold valEvs; rw [List.flatMap_cons, hcomp]
    rw [heq]
    constructor
    · rintro ⟨g1, g2, e1, e2, rfl⟩
      rw [(actOwes_iff h h2 hm g1).1 e1, (ih h3 hv' g2).1 e2]
    · rintro rfl
      exact ⟨_, _, (actOwes_iff h h2 hm _).2 rfl, (ih h3 hv' _).2 rfl, rfl⟩

theorem Gives.not_build {w : World} {c : EcsId} {bs : Bytes} : ¬ Gives w .build c bs := fun h => h

/-- Every lock belongs to a component of some table. -/
def Tight (w : World) : Prop := ∀ c, w.lockLookup c ≠ none → w.Used c

/-- The guards `gs` are alive. -/
def Under (gs : List Guard) (w : World) : Prop := Held w.locks gs

/-- No lock is held. -/
abbrev Idle (w : World) : Prop := Under [] w

theorem under_append {gs : List Guard} {w w' : World} (h : Under gs w) (hl : ∃ n, w'.locks = w.locks ++ List.replicate n RwLock.new) :
    Under gs w' := by
  obtain ⟨n, hn⟩ := hl
  intro i
  rw [hn, List.getElem?_append]
  have := h i
  split
  · exact this
  · rename_i hi
    rw [List.getElem?_eq_none (by omega)] at this
    rw [List.getElem?_replicate]
    split
    · exact ⟨this.1.symm, this.2, fun hh => by cases hh⟩
    · exact this

/-- What holds after a call. -/
structure After (gs : List Guard) (w w' : World) (c : Call) (r : Option Fault) : Prop where
  inv : Inv w'
  idle : Under gs w'
  some_deal : ∃ d, c.deal w w' r d
  acc : ∀ d, c.deal w w' r d → (w'.log ++ w'.storedEvs ++ d.taken ++ d.lost).Perm (w.log ++ w.storedEvs ++ d.given)

theorem after_same {gs : List Guard} {w w' : World} {c : Call} {r : Option Fault} (hi : Inv w') (hid : Under gs w') (hl : w'.log = w.log)
    (he : w'.storedEvs.Perm w.storedEvs) (hd : ∀ d, c.deal w w' r d ↔ d = {}) : After gs w w' c r := by
  refine ⟨hi, hid, ⟨{}, (hd _).2 rfl⟩, ?_⟩
  intro d h
  rw [(hd d).1 h, hl]
  simpa using he.append_left w.log

theorem deal_iff_nil {g t l : List DropEv} : (⟨g, t, l⟩ : Deal) = {} ↔ g = [] ∧ t = [] ∧ l = [] := by
  constructor
  · intro h; injection h with h1 h2 h3; exact ⟨h1, h2, h3⟩
  · rintro ⟨rfl, rfl, rfl⟩; rfl

/-- Panics that the theorems do not follow up: the limits of the allocator; a call that never returns. -/
def Stop (f : Fault) : Prop := Limit f ∨ f = .deadlock

/-- Not undefined behaviour and not the fuel of the model. -/
def Clean (f : Fault) : Prop := (∀ u, f ≠ .ub u) ∧ f ≠ .fuel

macro "clean" : tactic => `(tactic| exact ⟨(by intro u hu; cases hu), (by intro hu; cases hu)⟩)

theorem _root_.Ellecs.Limit.clean {f : Fault} (h : Limit f) : Clean f := by
  rcases h with rfl | rfl | rfl <;> clean

theorem Made.builtNew {w w' : World} {e : EcsId} {P : EcsId → Bytes → Prop} {E : List DropEv} {cm : ComponentMeta}
    (hi : Inv w) (hrd : w.Ready) (h : Made w w' e True P E cm) : BuiltNew w w' e := by
  refine ⟨(h.row e).2 (Or.inr (Or.inr ⟨trivial, rfl⟩)), fun hr => h.unknown (hi.row_live hr).kept, ?_⟩
  intro t ht
  cases hw : w.typeMap t with
  | none => exact h.notType ⟨t, hw, ht⟩
  | some id =>
    have := h.typ t id hw
    rw [ht] at this
    injection this with this
    subst this
    exact h.unknown (hrd.kept hi hw)

theorem Made.not_builtNew {w w' : World} {e : EcsId} {P : EcsId → Bytes → Prop} {E : List DropEv} {cm : ComponentMeta}
    (h : Made w w' e False P E cm) : ¬ ∃ x, BuiltNew w w' x := by
  rintro ⟨x, h1, h2, h3⟩
  rcases (h.row x).1 h1 with hr | ⟨t, _, ht⟩ | hr
  · exact h2 hr
  · exact h3 t ht
  · exact hr.1

theorem Grow.not_builtNew {w w' : World} (h : Grow w w') : ¬ ∃ x, BuiltNew w w' x := by
  rintro ⟨x, h1, h2, h3⟩
  rcases (h.row x).1 h1 with hr | ⟨t, _, ht⟩
  · exact h2 hr
  · exact h3 t ht

theorem after_unbuilt {gs : List Guard} {w w' : World} {kind : SpawnKind} {as : List BAct} {r : Option Fault} (hi : Inv w') (hid : Under gs w')
    (hl : w'.log = w.log) (he : w'.storedEvs.Perm w.storedEvs) (hn : ¬ ∃ x, BuiltNew w w' x) : After gs w w' (.spawn kind as) r := by
  refine after_same hi hid hl he ?_
  rintro ⟨g, t, l⟩
  rw [deal_iff_nil]
  constructor
  · rintro ⟨h1, h2, h3 | h3⟩
    · exact ⟨h3.2, h1, h2⟩
    · exact absurd h3.1 hn
  · rintro ⟨rfl, rfl, rfl⟩
    exact ⟨rfl, rfl, Or.inl ⟨hn, rfl⟩⟩

theorem prefix_uniq {α : Type} {x : α} : ∀ {p p' q q' : List α}, p ++ x :: q = p' ++ x :: q' → x ∉ p → x ∉ p' → p = p'
  | [], [], _, _, _, _, _ => rfl
  | [], y :: p', _, _, h, _, h2 => by
    injection h with h _; exact absurd (by rw [h]; exact List.mem_cons_self) h2
  | y :: p, [], _, _, h, h1, _ => by
    injection h with h _; exact absurd (by rw [← h]; exact List.mem_cons_self) h1
  | y :: p, y' :: p', q, q', h, h1, h2 => by
    injection h with h h'
    rw [h, prefix_uniq h' (fun hh => h1 (List.mem_cons_of_mem _ hh)) (fun hh => h2 (List.mem_cons_of_mem _ hh))]

theorem after_built {gs : List Guard} {w w' : World} {kind : SpawnKind} {as : List BAct} {r : Option Fault} {e : EcsId} {vals : List (EcsId × Bytes)}
    {cm : ComponentMeta} {pre post : List BAct} (hi : Inv w) (hrd : w.Ready) (hid : Under gs w') (has : as = pre ++ .build :: post) (hpre : .build ∉ pre)
    (hv : ActVals w' pre vals) (hok : ValsOk w' vals)
    (hm : Made w w' e True (fun c bs => (c, bs) ∈ vals) (valEvs w' vals) cm) : After gs w w' (.spawn kind as) r := by
  have hb : ∃ x, BuiltNew w w' x := ⟨e, hm.builtNew hi hrd⟩
  refine ⟨hm.inv, hid, ⟨⟨valEvs w' vals, [], []⟩, rfl, rfl, Or.inr ⟨hb, pre, post, has, hpre, (actsOwe_iff hm.inv hv hok _).2 rfl⟩⟩, ?_⟩
  rintro ⟨g, t, l⟩ ⟨h1, h2, h3 | ⟨_, pre', post', h4, h5, h6⟩⟩
  · exact absurd hb h3.1
  · simp only at h1 h2 h6
    subst h1; subst h2
    have : pre' = pre := prefix_uniq (h4.symm.trans has) h5 hpre
    subst this
    rw [(actsOwe_iff hm.inv hv hok g).1 h6, hm.log]
    simpa using hm.evs.append_left w.log

theorem Made.tight' {w w' : World} {e : EcsId} {built : Prop} {P : EcsId → Bytes → Prop} {E : List DropEv} {cm : ComponentMeta}
    (h : Made w w' e built P E cm) (ht : Tight w) : Tight w' := by
  intro c hc
  rw [h.used]
  exact (h.tight c hc).imp_left (ht c)

theorem Grow.tight' {w w' : World} (h : Grow w w') (ht : Tight w) : Tight w' := by
  intro c hc
  rw [h.used]
  exact ht c (h.tight c hc)

theorem Upd.tight' {w w' : World} {e : EcsId} {P : EcsId → Bytes → Prop} (h : Upd w w' e P) (ht : Tight w) : Tight w' := by
  intro c hc
  rcases h.tight c hc with hh | ⟨bs, hh⟩
  · exact h.used c (ht c hh)
  · exact has_used h.inv ((h.self c bs).2 hh)

theorem refused_clean {w : World} {b : Builder} {a : BAct} {f : Fault} (h : Refused w b a f) : Clean f := by
  cases a with
  | «with» t v => rcases h with ⟨rfl, _⟩ | ⟨rfl, _⟩ | ⟨rfl, _⟩ <;> clean
  | withDynamic id => rcases h with ⟨rfl, _⟩ | ⟨rfl, _⟩ | ⟨rfl, _⟩ <;> clean
  | withDynamicWithData id v => rcases h with ⟨rfl, _⟩ | ⟨rfl, _⟩ | ⟨rfl, _⟩ <;> clean
  | build => exact h.elim

theorem exec_spawn {gs : List Guard} {w : World} (h : Inv w) (hn : w.Ready) (hid : Under gs w) {kind : SpawnKind} {as : List BAct} (hc : ChainOk w kind as) :
    Tri (Call.exec (.spawn kind as)) w (fun _ w' => After gs w w' (.spawn kind as) none ∧ (Tight w → Tight w'))
      (fun f w' => Clean f ∧ (Stop f ∨ After gs w w' (.spawn kind as) (some f))) := by
  unfold Call.exec
  rw [tri_bind]
  refine (spawnWith_spec h hn hc).imp ?_ ?_
  · rintro e w' ⟨_, ⟨_, hm⟩ | ⟨pre, post, vals, v1, v2, v3, v4, v5, hm⟩⟩
    · rw [tri_pure]
      refine ⟨after_unbuilt hm.inv (under_append hid hm.locks) hm.log (by simpa using hm.evs) hm.not_builtNew, hm.tight'⟩
    · rw [tri_pure]
      exact ⟨after_built h hn (under_append hid hm.locks) v1 v2 v3 v4 hm, hm.tight'⟩
  · rintro f w' (⟨_, ⟨rfl, _, hg, _⟩ | ⟨e, rfl, _, hm⟩ | ⟨e, w1, b, w2, pre, a, post, b1, w3, x1, x2, x3, x4, x5, hm | ⟨pre', post', vals, v1, v2, v3, v4, v5, hm⟩⟩⟩ | ⟨hl, _⟩)
    · exact ⟨by clean,
        Or.inr (after_unbuilt hg.inv (under_append hid hg.locks) hg.log hg.evs hg.not_builtNew)⟩
    · exact ⟨by clean, Or.inl (Or.inl (Or.inr (Or.inl rfl)))⟩
    · exact ⟨refused_clean x5.1,
        Or.inr (after_unbuilt hm.2.inv (under_append hid hm.2.locks) hm.2.log (by simpa using hm.2.evs) hm.2.not_builtNew)⟩
    · refine ⟨refused_clean x5.1, Or.inr (after_built h hn (under_append hid hm.locks) (pre := pre') (post := post' ++ a :: post) ?_ v2 v3 v4 hm)⟩
      rw [x3, v1]; simp
    · exact ⟨hl.clean, Or.inl (Or.inl hl)⟩

theorem clean_of {f : Fault} (h1 : ∀ u, f ≠ .ub u) (h2 : f ≠ .fuel) : Clean f := ⟨h1, h2⟩

theorem exec_addComponent {gs : List Guard} {w : World} (h : Inv w) (hn : w.Ready) (hid : Under gs w) (e : EcsId) (t : Ty) {v : Bytes} (hv : v.length = t.size) :
    Tri (Call.exec (.addComponent e t v)) w (fun _ w' => After gs w w' (.addComponent e t v) none ∧ (Tight w → Tight w'))
      (fun f w' => Clean f ∧ (Stop f ∨ After gs w w' (.addComponent e t v) (some f))) := by
  unfold Call.exec
  have hap : ∀ (l s : List DropEv) (x : DropEv), ((l ++ [x]) ++ s).Perm (l ++ s ++ [x]) := by
    intro l s x
    rw [List.append_assoc, List.append_assoc]
    exact List.Perm.append_left l List.perm_append_comm
  refine (addComponent_spec h hn e t hv).imp ?_ ?_
  · rintro _ w' ⟨hl, id, w1, hg, ⟨hd, rfl⟩ | ⟨hr, hl', hnc, hlog, hu, hev⟩⟩
    · refine ⟨⟨hg.grow.inv, under_append hid hg.grow.locks, ⟨⟨_, [], _⟩, rfl, rfl, Or.inr ⟨rfl, id, hg.typ, fun hh => hd (alive_iff.1 hh)⟩⟩, ?_⟩,
        hg.grow.tight'⟩
      rintro ⟨g, tk, l⟩ ⟨h1, h2, h3⟩
      simp only at h1 h2 h3
      subst h1; subst h2
      have hl2 : l = [⟨.generic t, v⟩] := by
        rcases h3 with ⟨_, c, h4, h5⟩ | ⟨h4, _⟩
        · rw [hg.typ] at h4; injection h4 with h4; subst h4
          exact absurd (alive_iff.1 h5) hd
        · exact h4
      subst hl2
      rw [hg.grow.log]
      simpa using (hg.grow.evs.append_left w.log).append_right [DropEv.mk (.generic t) v]
    · have hal : w'.Alive id := by rw [alive_iff, hu.ent]; exact hl'
      have htt : w'.typeMap t = some id := by rw [hu.typ]; exact hg.typ
      refine ⟨⟨hu.inv, under_append (under_append hid hg.grow.locks) hu.locks, ⟨⟨_, [], []⟩, rfl, rfl, Or.inl ⟨rfl, id, htt, hal⟩⟩, ?_⟩,
        fun ht => hu.tight' (hg.grow.tight' ht)⟩
      rintro ⟨g, tk, l⟩ ⟨h1, h2, h3⟩
      simp only at h1 h2 h3
      subst h1; subst h2
      have hl2 : l = [] := by
        rcases h3 with ⟨h4, _⟩ | ⟨_, c, h4, h5⟩
        · exact h4
        · rw [htt] at h4; injection h4 with h4; subst h4
          exact absurd hal h5
      subst hl2
      rw [hlog, hg.grow.log]
      have := (hev.trans (hg.grow.evs.append_right _)).append_left w.log
      simpa using this
  · rintro f w' (⟨w0, rfl, ⟨rfl, hf⟩ | ⟨rfl, _, _, hg, _⟩⟩ | ⟨id, w1, hg, hl, ⟨rfl, _, _, rfl⟩ | ⟨rfl, _, _, _, rfl⟩ | ⟨hlim, _⟩⟩)
    · have hf' : f = .notAlive ∨ f = .noGeneration ∨ f = .outOfIds := by
        rcases hf with ⟨rfl, _⟩ | ⟨rfl, _⟩
        · exact Or.inr (Or.inl rfl)
        · exact Or.inl rfl
      refine ⟨by rcases hf with ⟨rfl, _⟩ | ⟨rfl, _⟩ <;> clean, Or.inr ⟨h.withLog _, hid, ⟨⟨_, [], []⟩, rfl, rfl, by show [] = _; rw [if_pos hf']⟩, ?_⟩⟩
      rintro ⟨g, tk, l⟩ ⟨h1, h2, h3⟩
      simp only [if_pos hf'] at h1 h2 h3
      subst h1; subst h2; subst h3
      show ((w0.log ++ [_]) ++ w0.storedEvs ++ [] ++ []).Perm _
      simpa using hap w0.log w0.storedEvs _
    · refine ⟨by clean, Or.inr ⟨hg.inv.withLog _, under_append hid hg.locks, ⟨⟨_, [], []⟩, rfl, rfl, rfl⟩, ?_⟩⟩
      rintro ⟨g, tk, l⟩ ⟨h1, h2, h3⟩
      simp at h1 h2 h3
      subst h1; subst h2; subst h3
      show ((w0.log ++ [_]) ++ w0.storedEvs ++ [] ++ []).Perm _
      rw [hg.log]
      have := (hap w.log w0.storedEvs (DropEv.mk (.generic t) v)).trans ((hg.evs.append_left w.log).append_right _)
      simpa using this
    all_goals first
      | exact ⟨hlim.clean, Or.inl (Or.inl hlim)⟩
      | refine ⟨by clean, Or.inr ⟨hg.grow.inv, under_append hid hg.grow.locks, ⟨⟨_, [], _⟩, rfl, rfl, rfl⟩, ?_⟩⟩
        rintro ⟨g, tk, l⟩ ⟨h1, h2, h3⟩
        simp at h1 h2 h3
        subst h1; subst h2; subst h3
        rw [hg.grow.log]
        simpa using (hg.grow.evs.append_left w.log).append_right [DropEv.mk (.generic t) v]

theorem after_nothing {gs : List Guard} {w w' : World} {c : Call} {r : Option Fault} (hc : ∀ d, c.deal w w' r d ↔ d = {}) {x : List DropEv}
    (hi : Inv w') (hid : Under gs w') (hl : w'.log = w.log ++ x) (he : (w'.storedEvs ++ x).Perm w.storedEvs) : After gs w w' c r := by
  refine ⟨hi, hid, ⟨{}, (hc _).2 rfl⟩, ?_⟩
  intro d hd
  rw [(hc d).1 hd, hl]
  have : (w.log ++ x ++ w'.storedEvs).Perm (w.log ++ w.storedEvs) := by
    rw [List.append_assoc]
    exact (List.perm_append_comm.trans he).append_left _
  simpa using this

theorem exec_removeComponent {gs : List Guard} {w : World} (h : Inv w) (hn : w.Ready) (hid : Under gs w) (e : EcsId) (t : Ty) :
    Tri (Call.exec (.removeComponent e t)) w (fun _ w' => After gs w w' (.removeComponent e t) none ∧ (Tight w → Tight w'))
      (fun f w' => Clean f ∧ (Stop f ∨ After gs w w' (.removeComponent e t) (some f))) := by
  unfold Call.exec
  refine (removeComponent_spec h hn e t).imp ?_ ?_
  · rintro _ w' ⟨hl, id, hty, ⟨hd, rfl⟩ | ⟨hr, hl', bs, hh, hlog, hu, hev⟩⟩
    · exact ⟨after_nothing (x := []) (fun _ => Iff.rfl) h hid (by simp) (by simp), fun ht => ht⟩
    · exact ⟨after_nothing (fun _ => Iff.rfl) hu.inv (under_append hid hu.locks) hlog hev, hu.tight'⟩
  · rintro f w' (⟨rfl, _, rfl⟩ | ⟨rfl, _, rfl⟩ | ⟨rfl, _, _, hg, _⟩ | ⟨id, w1, hg, _, ⟨rfl, _, _, rfl⟩ | ⟨rfl, _, _, _, rfl⟩ | ⟨hlim, _⟩⟩)
    · exact ⟨by clean, Or.inr (after_nothing (x := []) (fun _ => Iff.rfl) h hid (by simp) (by simp))⟩
    · exact ⟨by clean, Or.inr (after_nothing (x := []) (fun _ => Iff.rfl) h hid (by simp) (by simp))⟩
    · exact ⟨by clean, Or.inr (after_nothing (x := []) (fun _ => Iff.rfl) hg.inv (under_append hid hg.locks) (by simp [hg.log]) (by simpa using hg.evs))⟩
    · exact ⟨by clean, Or.inr (after_nothing (x := []) (fun _ => Iff.rfl) hg.grow.inv (under_append hid hg.grow.locks) (by simp [hg.grow.log])
        (by simpa using hg.grow.evs))⟩
    · exact ⟨by clean, Or.inr (after_nothing (x := []) (fun _ => Iff.rfl) hg.grow.inv (under_append hid hg.grow.locks) (by simp [hg.grow.log])
        (by simpa using hg.grow.evs))⟩
    · exact ⟨hlim.clean, Or.inl (Or.inl hlim)⟩

theorem exec_addDynamic {gs : List Guard} {w : World} (h : Inv w) (hid : Under gs w) (e c : EcsId) :
    Tri (Call.exec (.addDynamic e c)) w (fun _ w' => After gs w w' (.addDynamic e c) none ∧ (Tight w → Tight w'))
      (fun f w' => Clean f ∧ (Stop f ∨ After gs w w' (.addDynamic e c) (some f))) := by
  unfold Call.exec
  refine (addZst_spec h e c).imp ?_ ?_
  · rintro _ w' ⟨hr, hnc, hlog, m, hm, hz, hu, hev⟩
    refine ⟨⟨hu.inv, under_append hid hu.locks, ⟨⟨_, [], []⟩, rfl, rfl, Or.inl ⟨rfl, m, hm, rfl⟩⟩, ?_⟩, hu.tight'⟩
    rintro ⟨g, tk, l⟩ ⟨h1, h2, ⟨_, m', h4, h5⟩ | ⟨h4, _⟩⟩
    · simp only at h1 h2 h5
      subst h1; subst h2
      rw [h5, owed_eq, h4.uniq hm, hlog]
      simpa using hev.append_left w.log
    · exact absurd rfl h4
  · rintro f w' (⟨rfl, hf⟩ | ⟨hlim, _⟩)
    · refine ⟨by rcases hf with ⟨rfl, _⟩ | ⟨rfl, _⟩ | ⟨rfl, _⟩ | ⟨rfl, _⟩ | ⟨rfl, _⟩ <;> clean,
        Or.inr (after_nothing (x := []) ?_ h hid (by simp) (by simp))⟩
      rintro ⟨g, t, l⟩
      rw [deal_iff_nil]
      constructor
      · rintro ⟨h1, h2, ⟨h3, _⟩ | ⟨_, h3⟩⟩
        · cases h3
        · exact ⟨h3, h1, h2⟩
      · rintro ⟨rfl, rfl, rfl⟩
        exact ⟨rfl, rfl, Or.inr ⟨by simp, rfl⟩⟩
    · exact ⟨hlim.clean, Or.inl (Or.inl hlim)⟩

theorem exec_addDynamicWithData {gs : List Guard} {w : World} (h : Inv w) (hid : Under gs w) (e c : EcsId) {src : Bytes}
    (hsrc : ∀ m, w.InfoIs c m → m.layout.size ≤ src.length) :
    Tri (Call.exec (.addDynamicWithData e c src)) w (fun _ w' => After gs w w' (.addDynamicWithData e c src) none ∧ (Tight w → Tight w'))
      (fun f w' => Clean f ∧ (Stop f ∨ After gs w w' (.addDynamicWithData e c src) (some f))) := by
  unfold Call.exec
  have hfail : ∀ f w', (∀ d, Call.deal w w' (some f) (.addDynamicWithData e c src) d ↔ d = {}) := by
    rintro f w' ⟨g, t, l⟩
    rw [deal_iff_nil]
    constructor
    · rintro ⟨h1, h2, ⟨h3, _⟩ | ⟨_, h3⟩⟩
      · cases h3
      · exact ⟨h3, h1, h2⟩
    · rintro ⟨rfl, rfl, rfl⟩
      exact ⟨rfl, rfl, Or.inr ⟨by simp, rfl⟩⟩
  have hlive : ∀ m, w.entities.Live c → compOf w.metas c.uindex = some m → w.InfoIs c m := by
    intro m hl hm
    rw [infoIs_iff h]
    refine ⟨?_, hm⟩
    rcases getEntityMeta_spec h c with ⟨g1, g2⟩ | ⟨g1, g2⟩ | ⟨g1, g2, g3, g4⟩ | ⟨im, cm, g1, g2, g3, g4, g5⟩
    · have := hl.lt; omega
    · exact absurd hl g2
    · unfold compOf at hm; unfold instOf at g3
      cases hx : (w.metas[c.uindex]?).join with
      | none => rw [hx] at hm; cases hm
      | some y => rw [hx] at g3; cases g3
    · exact (row_iff c).2 ⟨_, _, g5⟩
  refine (addDyn_spec h e c (fun m hl hm => hsrc m (hlive m hl hm))).imp ?_ ?_
  · rintro _ w' (⟨hd, rfl⟩ | ⟨hl, hr, hlc, hnc, hlog, m, hm, hu, hev⟩)
    · refine ⟨after_nothing (x := []) ?_ h hid (by simp) (by simp), id⟩
      have hdead : ¬ (w'.Alive e ∧ w'.Alive c) := by
        unfold Alive
        rintro ⟨h1, h2⟩
        rcases hd with hd | ⟨_, hd⟩
        · rw [h1] at hd; cases hd
        · rw [h2] at hd; cases hd
      rintro ⟨g, t, l⟩
      rw [deal_iff_nil]
      constructor
      · rintro ⟨h1, h2, ⟨_, h3, h4, _⟩ | ⟨_, h3⟩⟩
        · exact absurd ⟨h3, h4⟩ hdead
        · exact ⟨h3, h1, h2⟩
      · rintro ⟨rfl, rfl, rfl⟩
        exact ⟨rfl, rfl, Or.inr ⟨fun hh => hdead hh.2, rfl⟩⟩
    · have hinfo := hlive m hlc hm
      refine ⟨⟨hu.inv, under_append hid hu.locks, ⟨⟨_, [], []⟩, rfl, rfl, Or.inl ⟨rfl, alive_iff.2 hl, alive_iff.2 hlc, m, hinfo, rfl⟩⟩, ?_⟩, hu.tight'⟩
      rintro ⟨g, tk, l⟩ ⟨h1, h2, ⟨_, _, _, m', h4, h5⟩ | ⟨h4, _⟩⟩
      · simp only at h1 h2 h5
        subst h1; subst h2
        rw [h5, owed_eq, h4.uniq hinfo, hlog]
        simpa using hev.append_left w.log
      · exact absurd ⟨rfl, alive_iff.2 hl, alive_iff.2 hlc⟩ h4
  · rintro f w' (⟨rfl, _, rfl⟩ | ⟨rfl, _, _, rfl⟩ | ⟨rfl, _, _, _, rfl⟩ | ⟨rfl, _, _, _, hi, hs, _⟩ | ⟨hlim, _⟩)
    · exact ⟨by clean, Or.inr (after_nothing (x := []) (hfail _ _) h hid (by simp) (by simp))⟩
    · exact ⟨by clean, Or.inr (after_nothing (x := []) (hfail _ _) h hid (by simp) (by simp))⟩
    · exact ⟨by clean, Or.inr (after_nothing (x := []) (hfail _ _) h hid (by simp) (by simp))⟩
    · exact ⟨by clean, Or.inr (after_nothing (x := []) (hfail _ _) hi (under_append hid hs.locks) (by simp [hs.log]) (by simp [hs.evs]))⟩
    · exact ⟨hlim.clean, Or.inl (Or.inl hlim)⟩

theorem exec_removeDynamic {gs : List Guard} {w : World} (h : Inv w) (hid : Under gs w) (e c : EcsId) :
    Tri (Call.exec (.removeDynamic e c)) w (fun _ w' => After gs w w' (.removeDynamic e c) none ∧ (Tight w → Tight w'))
      (fun f w' => Clean f ∧ (Stop f ∨ After gs w w' (.removeDynamic e c) (some f))) := by
  unfold Call.exec
  refine (removeDyn_spec h e c).imp ?_ ?_
  · rintro _ w' (⟨hd, rfl⟩ | ⟨hl, hr, hlc, m, bs, hm, hh, hlog, hu, hev⟩)
    · exact ⟨after_nothing (x := []) (fun _ => Iff.rfl) h hid (by simp) (by simp), id⟩
    · exact ⟨after_nothing (fun _ => Iff.rfl) hu.inv (under_append hid hu.locks) hlog hev, hu.tight'⟩
  · rintro f w' (⟨rfl, _, rfl⟩ | ⟨rfl, _, _, rfl⟩ | ⟨rfl, _, _, _, rfl⟩ | ⟨hlim, _⟩)
    · exact ⟨by clean, Or.inr (after_nothing (x := []) (fun _ => Iff.rfl) h hid (by simp) (by simp))⟩
    · exact ⟨by clean, Or.inr (after_nothing (x := []) (fun _ => Iff.rfl) h hid (by simp) (by simp))⟩
    · exact ⟨by clean, Or.inr (after_nothing (x := []) (fun _ => Iff.rfl) h hid (by simp) (by simp))⟩
    · exact ⟨hlim.clean, Or.inl (Or.inl hlim)⟩

theorem exec_despawn {gs : List Guard} {w : World} (h : Inv w) (hid : Under gs w) (e : EcsId) :
    Tri (Call.exec (.despawn e)) w (fun _ w' => After gs w w' (.despawn e) none ∧ (Tight w → Tight w'))
      (fun f w' => Clean f ∧ (Stop f ∨ After gs w w' (.despawn e) (some f))) := by
  unfold Call.exec
  rw [tri_bind]
  refine (despawn_spec h e).imp ?_ ?_
  · rintro b w' (⟨_, _, rfl⟩ | ⟨_, _, _, _, hg, evs, L, hd, hlog, hev⟩)
    · rw [tri_pure]
      exact ⟨after_nothing (x := []) (fun _ => Iff.rfl) h hid (by simp) (by simp), id⟩
    · rw [tri_pure]
      refine ⟨after_nothing (fun _ => Iff.rfl) hg.inv (by unfold Under; rw [hg.locks]; exact hid) hlog hev, ?_⟩
      intro ht c hc
      rw [hg.look] at hc
      exact used_ids hg.ids (ht c hc)
  · rintro f w' ⟨rfl, hf⟩
    refine ⟨by rcases hf with ⟨rfl, _⟩ | ⟨rfl, _⟩ | ⟨rfl, _⟩ <;> clean,
      Or.inr (after_nothing (x := []) (fun _ => Iff.rfl) h hid (by simp) (by simp))⟩

theorem exec_register {gs : List Guard} {w : World} (h : Inv w) (hn : w.Ready) (hid : Under gs w) (t : Ty) :
    Tri (Call.exec (.register t)) w (fun _ w' => After gs w w' (.register t) none ∧ (Tight w → Tight w'))
      (fun f w' => Clean f ∧ (Stop f ∨ After gs w w' (.register t) (some f))) := by
  unfold Call.exec
  rw [tri_bind]
  refine (getOrCreate_spec h hn t).imp ?_ ?_
  · rintro id w' ⟨hg, _⟩
    rw [tri_pure]
    exact ⟨after_nothing (x := []) (fun _ => Iff.rfl) hg.inv (under_append hid hg.locks) (by simp [hg.log]) (by simpa using hg.evs), hg.tight'⟩
  · rintro f w' ⟨rfl, _, _, hg, _⟩
    exact ⟨by clean, Or.inr (after_nothing (x := []) (fun _ => Iff.rfl) hg.inv (under_append hid hg.locks) (by simp [hg.log]) (by simpa using hg.evs))⟩

theorem PointsAt.info {w : World} (h : Inv w) {p : Ptr} {e c : EcsId} (hp : w.PointsAt p e c) : ∃ m, w.InfoIs c m := by
  obtain ⟨k, j, r, a, v, h1, h2, h3, h4, q1, q2, hr, q3, hh⟩ := hp.cell h
  obtain ⟨hl, m, hc, _⟩ := infoFn_some.1 q3
  refine ⟨m, (infoIs_iff h).2 ⟨?_, hc⟩⟩
  rcases getEntityMeta_spec h c with ⟨g1, g2⟩ | ⟨g1, g2⟩ | ⟨g1, g2, g3, g4⟩ | ⟨im, cm, g1, g2, g3, g4, g5⟩
  · have := hl.lt; omega
  · exact absurd hl g2
  · unfold compOf at hc; unfold instOf at g3
    cases hx : (w.metas[c.uindex]?).join with
    | none => rw [hx] at hc; cases hc
    | some y => rw [hx] at g3; cases g3
  · exact (row_iff c).2 ⟨_, _, g5⟩

theorem exec_write {gs : List Guard} {w : World} (h : Inv w) (hid : Under gs w) (e c : EcsId) {bs : Bytes} (hb : ∀ m, w.InfoIs c m → bs.length = m.layout.size) :
    Tri (Call.exec (.write e c bs)) w (fun _ w' => After gs w w' (.write e c bs) none ∧ (Tight w → Tight w'))
      (fun f w' => Clean f ∧ (Stop f ∨ After gs w w' (.write e c bs) (some f))) := by
  unfold Call.exec
  simp only [tri_bind, tri_get, tri_liftE]
  have hnone : ∀ r, ¬ w.HasComp e c → (∀ d, Call.deal w w r (.write e c bs) d ↔ d = {}) := by
    rintro r hn ⟨g, t, l⟩
    rw [deal_iff_nil]
    constructor
    · rintro ⟨h1, ⟨old, m, h2, _⟩ | ⟨_, h2, h3⟩⟩
      · exact absurd ⟨old, h2⟩ hn
      · exact ⟨h2, h3, h1⟩
    · rintro ⟨rfl, rfl, rfl⟩
      exact ⟨rfl, Or.inr ⟨hn, rfl, rfl⟩⟩
  rcases getComponentMut_spec h e c with ⟨h1, h2⟩ | ⟨h1, h2⟩ | ⟨h1, h2, h3, h4⟩ | ⟨p, h1, hp⟩
  · rw [h1]
    have : ¬ w.HasComp e c := by
      rintro ⟨x, hx⟩
      have h3 := alive_iff.2 (h.row_live (h.has_live hx))
      have h4 : w.Alive c := by
        obtain ⟨p, hp⟩ := has_points hx
        obtain ⟨m, hm⟩ := hp.info h
        exact alive_iff.2 (h.row_live ((infoIs_iff h).1 hm).1)
      unfold Alive at h3 h4
      rcases h2 with h2 | h2
      · rw [h3] at h2; cases h2
      · rw [h4] at h2; cases h2
    exact ⟨by clean, Or.inr (after_nothing (x := []) (hnone _ this) h hid (by simp) (by simp))⟩
  · rw [h1]
    have : ¬ w.HasComp e c := by
      rintro ⟨x, hx⟩
      obtain ⟨p, hp⟩ := has_points hx
      obtain ⟨m, hm⟩ := hp.info h
      rcases h2 with h2 | h2 | h2
      · exact h2 (alive_iff.2 (h.row_live (h.has_live hx)))
      · exact h2 (alive_iff.2 (h.row_live ((infoIs_iff h).1 hm).1))
      · exact h2 (h.has_live hx)
    simp only [tri_pure]
    exact ⟨after_nothing (x := []) (hnone _ this) h hid (by simp) (by simp), id⟩
  · rw [h1]
    exact ⟨by clean, Or.inr (after_nothing (x := []) (hnone _ h4) h hid (by simp) (by simp))⟩
  · rw [h1]
    simp only [tri_step]
    obtain ⟨m, hm⟩ := hp.info h
    obtain ⟨w', w1, w2⟩ := writePtr_spec h hp hm (hb m hm)
    obtain ⟨old, _, hold⟩ := readPtr_spec h hp hm
    rw [w1]
    refine ⟨⟨w2.inv, by unfold Under; rw [w2.locks]; exact hid, ⟨⟨_, _, []⟩, rfl, Or.inl ⟨old, m, hold, hm, rfl, rfl⟩⟩, ?_⟩, ?_⟩
    · rintro ⟨g, t, l⟩ ⟨h3, ⟨old', m', h4, h5, h6, h7⟩ | ⟨h4, _⟩⟩
      · simp only at h3 h6 h7
        subst h3
        rw [h6, h7, owed_eq, owed_eq, w2.log]
        have := (w2.evs old' m' h4 h5).append_left w.log
        simpa using this
      · exact absurd ⟨old, hold⟩ h4
    · intro ht x hx
      rw [w2.look] at hx
      exact used_ids w2.ids (ht x hx)

theorem Inv.withLocks {w : World} (h : Inv w) {ls : List RwLock} (hl : ls.length = w.locks.length) : Inv { w with locks := ls } :=
  ⟨h.ent, h.loc, h.shape, h.col, h.bits, h.cache, by show LockOk _ ls.length _; rw [hl]; exact h.lock, h.type, h.arch0, h.uniq, h.reuse⟩

theorem exec_query {gs : List Guard} {w : World} (h : Inv w) (hid : Under gs w) (ps : List Param) (b : Bool) :
    Tri (Call.exec (.query ps b)) w (fun _ w' => After gs w w' (.query ps b) none ∧ (Tight w → Tight w'))
      (fun f w' => Clean f ∧ (Stop f ∨ After gs w w' (.query ps b) (some f))) := by
  have hnth : ∀ r (ls : List RwLock), ls.length = w.locks.length → Held ls gs → After gs w { w with locks := ls } (.query ps b) r :=
    fun r ls hl hh => after_nothing (x := []) (fun _ => Iff.rfl) (h.withLocks hl) hh (by simp) (by simp [storedEvs])
  unfold Call.exec
  rw [tri_bind]
  unfold Tri World.query
  cases hf : allFetches w ps with
  | none =>
    simp only
    unfold dropGuards
    obtain ⟨c1, c2, _⟩ := releaseAll_spec (p := b) (base := gs) (ps.map (fun _ => Guard.none)) (ls := w.locks) (by
      intro i
      have := hid i
      have z1 : ∀ x, x ≠ Guard.none → List.count x (ps.map (fun _ => Guard.none)) = 0 := by
        intro x hx
        rw [List.count_eq_zero]
        intro hh
        obtain ⟨_, _, hh⟩ := List.mem_map.1 hh
        exact hx hh.symm
      unfold LockHeld at *
      simp only [List.count_append, z1 (.read i) (by simp), z1 (.write i) (by simp), Nat.add_zero]
      exact this)
    exact ⟨hnth _ _ c2 c1, fun ht => ht⟩
  | some fs =>
    simp only
    rcases acquireAllStatic_spec (w := w) fs (ls := w.locks) (base := gs) (done := []) (by rw [List.append_nil]; exact hid) h.lock.range with
      ⟨new, ls', a1, a2, a3, a4, a5⟩ | ⟨e, ls', pre, f, post, new, a1, a2, a3, a4, a5, a6, a7⟩
    · rw [a1]
      simp only
      unfold dropGuards
      obtain ⟨c1, c2, _⟩ := releaseAll_spec (p := b) (base := gs) ([] ++ new) (ls := ls') a3
      exact ⟨hnth _ _ (c2.trans a4) c1, fun ht => ht⟩
    · rw [a1]
      simp only
      obtain ⟨id, _, ⟨rfl, _⟩ | ⟨i, _, ⟨rfl, _⟩ | ⟨rfl, _⟩⟩⟩ := a4
      · exact ⟨by clean, Or.inr (hnth _ _ a6 a5)⟩
      · exact ⟨by clean, Or.inr (hnth _ _ a6 a5)⟩
      · exact ⟨by clean, Or.inl (Or.inr rfl)⟩

theorem exec_queryDynamic {gs : List Guard} {w : World} (h : Inv w) (hid : Under gs w) (fs : List Fetch) (b : Bool) :
    Tri (Call.exec (.queryDynamic fs b)) w (fun _ w' => After gs w w' (.queryDynamic fs b) none ∧ (Tight w → Tight w'))
      (fun f w' => Clean f ∧ (Stop f ∨ After gs w w' (.queryDynamic fs b) (some f))) := by
  have hnth : ∀ r (ls : List RwLock), ls.length = w.locks.length → Held ls gs → After gs w { w with locks := ls } (.queryDynamic fs b) r :=
    fun r ls hl hh => after_nothing (x := []) (fun _ => Iff.rfl) (h.withLocks hl) hh (by simp) (by simp [storedEvs])
  unfold Call.exec
  rw [tri_bind]
  unfold Tri World.queryDynamic
  rcases acquireAllDyn_spec (w := w) fs (ls := w.locks) (base := gs) (done := []) false (by rw [List.append_nil]; exact hid) h.lock.range with
    ⟨new, ls', a1, a2, a3, a4, a5⟩ | ⟨e, ls', pre, f, post, new, a1, a2, a3, a4, _, a5, a6, a7⟩
  · rw [a1]
    simp only
    unfold dropGuards
    obtain ⟨c1, c2, _⟩ := releaseAll_spec (p := b) (base := gs) ([] ++ new) (ls := ls') a3
    exact ⟨hnth _ _ (c2.trans a4) c1, fun ht => ht⟩
  · rw [a1]
    simp only
    obtain ⟨id, _, ⟨rfl, _⟩ | ⟨i, _, ⟨rfl, _⟩ | ⟨rfl, _⟩⟩⟩ := a4
    · exact ⟨by clean, Or.inr (hnth _ _ a6 a5)⟩
    · exact ⟨by clean, Or.inr (hnth _ _ a6 a5)⟩
    · exact ⟨by clean, Or.inl (Or.inr rfl)⟩

/-- One call. -/
theorem exec_spec {gs : List Guard} {w : World} (h : Inv w) (hn : w.Ready) (hid : Under gs w) {c : Call} (hc : c.Ok w) :
    Tri c.exec w (fun _ w' => After gs w w' c none ∧ (Tight w → Tight w')) (fun f w' => Clean f ∧ (Stop f ∨ After gs w w' c (some f))) := by
  cases c with
  | spawn kind acts => exact exec_spawn h hn hid hc
  | addComponent e t v => exact exec_addComponent h hn hid e t hc
  | removeComponent e t => exact exec_removeComponent h hn hid e t
  | addDynamic e c => exact exec_addDynamic h hid e c
  | addDynamicWithData e c src => exact exec_addDynamicWithData h hid e c hc
  | removeDynamic e c => exact exec_removeDynamic h hid e c
  | despawn e => exact exec_despawn h hid e
  | register t => exact exec_register h hn hid t
  | write e c bs => exact exec_write h hid e c hc
  | query ps b => exact exec_query h hid ps b
  | queryDynamic fs b => exact exec_queryDynamic h hid fs b

theorem NoFullSlot.type {w : World} (h : w.NoFullSlot) : w.NoFullType := Entities.NoWrap.ready h

/-- What holds in every reachable world. -/
structure Sound (w : World) : Prop where
  inv : Inv w
  nowrap : w.entities.NoWrap
  idle : Idle w

theorem sound_new : Sound World.new :=
  ⟨inv_new, (by intro p hp; cases hp), (by intro i; simp [World.new, LockHeld])⟩

theorem Reachable.sound {w : World} (h : Reachable w) : Sound w := by
  induction h with
  | new => exact sound_new
  | ok c _ hc he hn ih =>
    have := (exec_spec ih.inv ih.nowrap.ready ih.idle hc).ok he
    exact ⟨this.1.inv, hn, this.1.idle⟩
  | panic c f _ hc he hl hd hn ih =>
    rcases ((exec_spec ih.inv ih.nowrap.ready ih.idle hc).error he).2 with (h1 | h1) | h1
    · exact absurd h1 hl
    · exact absurd h1 hd
    · exact ⟨h1.inv, hn, h1.idle⟩

theorem Calm.reachable {w : World} (h : Calm w) : Reachable w := by
  induction h with
  | new => exact .new
  | ok c _ hc he hn ih => exact .ok c ih hc he hn

theorem Calm.tight {w : World} (h : Calm w) : Tight w := by
  induction h with
  | new => intro c hc; exact absurd rfl hc
  | ok c h0 hc he hn ih =>
    have hs := h0.reachable.sound
    exact ((exec_spec hs.inv hs.nowrap.ready hs.idle hc).ok he).2 ih

theorem Hist.reachable {w : World} {d : Deal} (h : Hist w d) : Reachable w := by
  induction h with
  | new => exact .new
  | ok c _ hc he hn _ ih => exact .ok c ih hc he hn
  | panic c f _ hc he hl hd hn _ ih => exact .panic c f ih hc he hl hd hn

theorem Reachable.hist {w : World} (h : Reachable w) : ∃ d, Hist w d := by
  induction h with
  | new => exact ⟨_, .new⟩
  | ok c h0 hc he hn ih =>
    obtain ⟨d, hd⟩ := ih
    have hs := h0.sound
    obtain ⟨d', hd'⟩ := ((exec_spec hs.inv hs.nowrap.ready hs.idle hc).ok he).1.some_deal
    exact ⟨_, .ok c hd hc he hn hd'⟩
  | panic c f h0 hc he hl hdl hn ih =>
    obtain ⟨d, hd⟩ := ih
    have hs := h0.sound
    rcases ((exec_spec hs.inv hs.nowrap.ready hs.idle hc).error he).2 with (h1 | h1) | h1
    · exact absurd h1 hl
    · exact absurd h1 hdl
    · obtain ⟨d', hd'⟩ := h1.some_deal
      exact ⟨_, .panic c f hd hc he hl hdl hn hd'⟩

/-- Everything handed over is dropped, stored, taken or lost, once. -/
theorem Hist.conserved {w : World} {d : Deal} (h : Hist w d) : (w.log ++ w.storedEvs ++ d.taken ++ d.lost).Perm d.given := by
  have key : ∀ {w w' : World} {d d' : Deal}, (w.log ++ w.storedEvs ++ d.taken ++ d.lost).Perm d.given →
      (w'.log ++ w'.storedEvs ++ d'.taken ++ d'.lost).Perm (w.log ++ w.storedEvs ++ d'.given) →
      (w'.log ++ w'.storedEvs ++ (d.append d').taken ++ (d.append d').lost).Perm (d.append d').given := by
    intro w w' d d' h1 h2
    show (w'.log ++ w'.storedEvs ++ (d.taken ++ d'.taken) ++ (d.lost ++ d'.lost)).Perm (d.given ++ d'.given)
    rw [List.perm_iff_count] at *
    intro z
    have := h1 z
    have := h2 z
    simp only [List.count_append] at *
    omega
  induction h with
  | new => exact List.Perm.refl _
  | ok c h0 hc he hn hd ih =>
    have hs := h0.reachable.sound
    exact key ih (((exec_spec hs.inv hs.nowrap.ready hs.idle hc).ok he).1.acc _ hd)
  | panic c f h0 hc he hl hdl hn hd ih =>
    have hs := h0.reachable.sound
    rcases ((exec_spec hs.inv hs.nowrap.ready hs.idle hc).error he).2 with (h1 | h1) | h1
    · exact absurd h1 hl
    · exact absurd h1 hdl
    · exact key ih (h1.acc _ hd)

end World
end Ellecs
