import Verif.Proofs.History
/-! # Chains of builder calls as they are meant to be used -/
namespace Ellecs

theorem Entities.spawn_len {s s' : Entities} {r : Except Fault EcsId} (h : s.spawn = (r, s')) :
    s'.generations.length ≤ s.generations.length + 1 := by
  unfold Entities.spawn at h
  split at h
  · split at h
    · injection h with _ h; subst h; exact Nat.le_succ _
    · split at h
      · injection h with _ h; subst h; exact Nat.le_succ _
      · simp only at h
        split at h <;> (injection h with _ h; subst h; simp)
  · simp only at h
    split at h <;> (injection h with _ h; subst h; simp)

namespace World

theorem spawnId_len (w : World) : Tri spawnId w (fun _ w' => w'.entities.generations.length ≤ w.entities.generations.length + 1)
    (fun _ _ => True) := by
  unfold Tri spawnId
  cases hs : w.entities.spawn with
  | mk r s' =>
    have := Entities.spawn_len hs
    cases r with
    | ok e => exact this
    | error f => trivial

theorem tri_and {α : Type} {x : M α} {w : World} {Q Q' : α → World → Prop} {E : Fault → World → Prop} (h : Tri x w Q E)
    (h' : Tri x w Q' (fun _ _ => True)) : Tri x w (fun a w' => Q a w' ∧ Q' a w') E := by
  unfold Tri at *
  cases hx : x w with
  | ok a w' => rw [hx] at h h'; exact ⟨h, h'⟩
  | error f w' => rw [hx] at h; exact h

theorem getOrCreate_len {w : World} (h : Inv w) (hn : w.Ready) (t : Ty) :
    Tri (getOrCreate t) w (fun _ w' => w'.entities.generations.length ≤ w.entities.generations.length + 1) (fun _ _ => True) := by
  unfold getOrCreate
  simp only [tri_bind (x := get), tri_get]
  cases ht : w.typeMap t with
  | some id => simp only [tri_pure]; exact Nat.le_succ _
  | none =>
    simp only
    rw [tri_bind]
    refine (tri_and (spawnId_spec h hn) (spawnId_len w)).imp ?_ (fun _ _ _ => trivial)
    rintro e w1 ⟨⟨s', rfl, i1, n1, l1, f1, k1, u1, m1⟩, hlen⟩
    obtain ⟨b, r, b1, b2, b3, b4, b5⟩ := Builder.new_spec e ComponentMeta.unit i1
    rw [tri_bind]
    unfold Tri
    rw [b1]
    simp only
    have i2 : Inv { w with entities := s', reuse := r } := i1.withReuse b5
    have hle : s'.Live e := (l1 e).2 (Or.inr rfl)
    have hbs := build_spec (w := { w with entities := s', reuse := r }) i2 b2 (by intro p hp; cases hp) List.nodup_nil
      (by rw [b3]; exact hle) (by rw [b3]; exact m1)
    apply tri_bind.2
    refine tri_orDrop hbs (E := fun _ _ => True) ?_ |>.imp ?_ (fun _ _ hh => hh)
    · rintro f w3 ⟨hh, _⟩; exact absurd rfl hh
    · rintro b' w3 ⟨hb', hB⟩
      have hblk : Builder.Blk b' := by
        rcases hb' with rfl | rfl
        · exact b2.blk
        · exact ⟨b2.block, b2.len⟩
      have hent : w3.entities = s' := hB.ent
      obtain ⟨r', d1, d2⟩ := Builder.drop_spec hblk hB.inv
      rw [tri_bind]
      unfold Tri
      rw [d1]
      simp only
      apply tri_bind.2
      rw [tri_step]
      simp only
      cases hme : w3.metas[e.uindex]? with
      | none => trivial
      | some o =>
        cases o with
        | none => trivial
        | some m =>
          simp only [tri_bind, tri_modify, tri_pure]
          rw [hent]; exact hlen

theorem act_len {w : World} (h : Inv w) (hn : w.Ready) (b : Builder) {a : BAct} (hnb : a ≠ .build) :
    Tri (b.act a) w (fun _ w' => w'.entities.generations.length ≤ w.entities.generations.length + 1) (fun _ _ => True) := by
  have key : ∀ {α : Type} {x : M α} {Q : α → World → Prop}, Tri x w Q (fun _ _ => True) → Tri (b.orDrop x) w Q (fun _ _ => True) := by
    intro α x Q hx
    unfold Tri Builder.orDrop at *
    cases hh : x w with
    | ok a w' => rw [hh] at hx; exact hx
    | error f w' =>
      simp only
      cases b.drop w' <;> trivial
  unfold Builder.act
  apply key
  cases a with
  | «with» t v =>
    simp only
    rw [tri_bind]
    refine (getOrCreate_len h hn t).imp ?_ (fun _ _ hh => hh)
    intro id w1 hl
    simp only [tri_bind, tri_get, tri_liftE]
    cases b.withDynamicWithData v id w1 with
    | ok b' => exact hl
    | error f => trivial
  | withDynamic id =>
    simp only [tri_bind, tri_get, tri_liftE]
    cases b.withDynamic id w with
    | ok b' => exact Nat.le_succ _
    | error f => trivial
  | withDynamicWithData id v =>
    simp only [tri_bind, tri_get, tri_liftE]
    cases b.withDynamicWithData v id w with
    | ok b' => exact Nat.le_succ _
    | error f => trivial
  | build => exact absurd rfl hnb

theorem ActValid.grow {w w' : World} (hi : Inv w) (h : Grow w w') {a : BAct} (ha : ActValid w a) : ActValid w' a := by
  cases a with
  | «with» t v =>
    refine ⟨ha.1, ?_⟩
    intro c hc
    cases ht : w.typeMap t with
    | none => exact alive_iff.2 ((h.live c).2 (Or.inr ⟨t, ht, hc⟩))
    | some c' =>
      have := h.typ t c' ht
      rw [hc] at this; injection this with this; subst this
      exact h.alive (ha.2 c ht)
  | withDynamic id => obtain ⟨m, h1, h2⟩ := ha; exact ⟨m, h.info hi h1, h2⟩
  | withDynamicWithData id v => obtain ⟨m, h1, h2⟩ := ha; exact ⟨m, h.info hi h1, h2⟩
  | build => exact ha

theorem ActValid.ne {w : World} {a : BAct} (ha : ActValid w a) : a ≠ .build := by rintro rfl; exact ha

theorem ActValid.callOk {w : World} {a : BAct} (ha : ActValid w a) (b : Builder) : CallOk w b a := by
  cases a with
  | «with» t v => exact ha.1
  | withDynamic id => trivial
  | withDynamicWithData id v =>
    obtain ⟨m, h1, h2⟩ := ha
    intro m' hm'
    have := h1.uniq hm'; subst this; exact h2
  | build => exact ha.elim

theorem CallsOk.cons {w : World} {b : Builder} {a : BAct} {as : List BAct} (h1 : CallOk w b a)
    (h2 : ∀ b1 w1, b.act a w = .ok b1 w1 → CallsOk w1 b1 as) : CallsOk w b (a :: as) := by
  intro pre x post e b1 w1 hr
  cases pre with
  | nil =>
    injection e with e1 e2; subst e1
    injection hr with hr hr'; subst hr; subst hr'; exact h1
  | cons y pre =>
    injection e with e1 e2; subst e1
    have hr' : (EStateM.bind (b.act a) (fun b => b.acts pre)) w = .ok b1 w1 := hr
    unfold EStateM.bind at hr'
    cases hx : b.act a w with
    | error f w' => rw [hx] at hr'; cases hr'
    | ok b2 w2 =>
      rw [hx] at hr'
      exact h2 b2 w2 hx pre x post e2 b1 w1 hr'

theorem callsOk_valid (as : List BAct) : ∀ {w : World} (_ : Inv w) (_ : w.Ready) {b : Builder} (_ : Builder.Blk b)
    (_ : ∀ a ∈ as, ActValid w a), CallsOk w b as := by
  induction as with
  | nil =>
    intro w _ _ b _ _ pre a post e
    cases pre <;> cases e
  | cons a as ih =>
    intro w h hn b hb hv
    have ha := hv a List.mem_cons_self
    refine CallsOk.cons (ha.callOk b) ?_
    intro b1 w1 hr
    obtain ⟨g, _, id, v, m, _, ext, _⟩ := (act_spec h hn hb (ha.callOk b) ha.ne).ok hr
    exact ih g.inv g.ready ext.blk (fun x hx => (hv x (List.mem_cons_of_mem _ hx)).grow h g)

theorem _root_.Ellecs.Builder.Ext.len {b b' : Builder} (hb : Builder.Blk b) {id : EcsId} {v : Bytes} (h : Builder.Ext b b' id v) :
    b'.len = b.len + v.length := by
  have h1 := congrArg List.length h.data
  rw [List.length_append, List.length_take, List.length_take, hb.block, h.blk.block, Nat.min_eq_left hb.len, Nat.min_eq_left h.blk.len] at h1
  exact h1

theorem Gives.bytes {w : World} {a : BAct} {c : EcsId} {v : Bytes} (h : Gives w a c v) : v.length ≤ actBytes a := by
  cases a with
  | «with» t v' => rw [h.2]; exact Nat.le_refl _
  | withDynamic id => rw [h.2]; exact Nat.zero_le _
  | withDynamicWithData id v' =>
    obtain ⟨_, m, _, rfl⟩ := h
    rw [List.length_take]; exact Nat.min_le_right _ _
  | build => exact h.elim

/-- What a chain of valid calls uses up. -/
theorem acts_bounds (as : List BAct) : ∀ {w : World} (_ : Inv w) (_ : w.Ready) {b : Builder} (_ : Builder.Blk b)
    (_ : ∀ a ∈ as, ActValid w a) {b' : Builder} {w' : World} (_ : b.acts as w = .ok b' w'),
    Grow w w' ∧ w'.entities.generations.length ≤ w.entities.generations.length + as.length ∧
      b'.len ≤ b.len + (as.map actBytes).sum := by
  induction as with
  | nil =>
    intro w h hn b hb hv b' w' hr
    injection hr with hr hr'; subst hr; subst hr'
    exact ⟨Grow.refl h hn, Nat.le_refl _, Nat.le_refl _⟩
  | cons a as ih =>
    intro w h hn b hb hv b' w' hr
    have ha := hv a List.mem_cons_self
    have hr' : (EStateM.bind (b.act a) (fun b => b.acts as)) w = .ok b' w' := hr
    unfold EStateM.bind at hr'
    cases hx : b.act a w with
    | error f w' => rw [hx] at hr'; cases hr'
    | ok b1 w1 =>
      rw [hx] at hr'
      obtain ⟨g, _, id, v, m, gv, ext, _⟩ := (act_spec h hn hb (ha.callOk b) ha.ne).ok hx
      have hl := (act_len h hn b ha.ne).ok hx
      obtain ⟨k1, k2, k3⟩ := ih g.inv g.ready ext.blk (fun x hx => (hv x (List.mem_cons_of_mem _ hx)).grow h g) hr'
      have := ext.len hb
      have := gv.bytes
      refine ⟨g.trans k1, ?_, ?_⟩
      · simp only [List.length_cons]; omega
      · simp only [List.map_cons, List.sum_cons]; omega

theorem _root_.Ellecs.Builder.Full.bound {b : Builder} {n : Nat} (h : b.Full n) : isizeMax ≤ 2 * (b.len + n) := by
  obtain ⟨h1, h2⟩ := h
  omega

theorem clash_of_gives {w w' : World} (hi : Inv w) (h : Grow w w') {a b : BAct} (ha : ActValid w a) (hb : ActValid w b) {c : EcsId}
    {v v' : Bytes} (h1 : Gives w' a c v) (h2 : Gives w' b c v') : Clash w a b := by
  have hty : ∀ t, w'.typeMap t = some c → (∃ m, w.InfoIs c m) → w.typeMap t = some c := by
    intro t ht ⟨m, hm⟩
    cases hw : w.typeMap t with
    | none =>
      exfalso
      exact h.unknown c ⟨t, hw, ht⟩ (hi.row_live ((infoIs_iff hi).1 hm).1).kept
    | some c' =>
      have := h.typ t c' hw
      rw [ht] at this; exact this.symm
  have hdyn : ∀ {a : BAct}, ActValid w a → ∀ {v}, Gives w' a c v → (∀ t v, a ≠ .with t v) → Names w a c ∧ ∃ m, w.InfoIs c m := by
    intro a ha v hg hne
    cases a with
    | «with» t v => exact absurd rfl (hne t v)
    | withDynamic id => obtain ⟨m, hm, _⟩ := ha; rw [hg.1]; exact ⟨rfl, m, hm⟩
    | withDynamicWithData id v => obtain ⟨m, hm, _⟩ := ha; rw [hg.1]; exact ⟨rfl, m, hm⟩
    | build => exact ha.elim
  by_cases ca : ∃ t v, a = .with t v
  · obtain ⟨t, va, rfl⟩ := ca
    by_cases cb : ∃ t v, b = .with t v
    · obtain ⟨t', vb, rfl⟩ := cb
      have := h.inv.type.inj _ _ _ h1.1 h2.1
      subst this
      exact Or.inl ⟨t, va, vb, rfl, rfl⟩
    · obtain ⟨n1, n2⟩ := hdyn hb h2 (fun t v e => cb ⟨t, v, e⟩)
      exact Or.inr ⟨c, hty t h1.1 n2, n1⟩
  · obtain ⟨n1, n2⟩ := hdyn ha h1 (fun t v e => ca ⟨t, v, e⟩)
    by_cases cb : ∃ t v, b = .with t v
    · obtain ⟨t', vb, rfl⟩ := cb
      exact Or.inr ⟨c, n1, hty t' h2.1 n2⟩
    · obtain ⟨n3, n4⟩ := hdyn hb h2 (fun t v e => cb ⟨t, v, e⟩)
      exact Or.inr ⟨c, n1, n3⟩

theorem nodup_of_distinct {w w' : World} (hi : Inv w) (h : Grow w w') {as : List BAct} (hv : ∀ a ∈ as, ActValid w a) (hd : Distinct w as)
    {vals : List (EcsId × Bytes)} (ha : ActVals w' as vals) : (vals.map Prod.fst).Nodup := by
  induction as generalizing vals with
  | nil => cases ha; exact List.nodup_nil
  | cons a as ih =>
    obtain ⟨id, v, vs', rfl, h2, h3⟩ := ha
    rw [Distinct, List.pairwise_cons] at hd
    rw [List.map_cons, List.nodup_cons]
    refine ⟨?_, ih (fun x hx => hv x (List.mem_cons_of_mem _ hx)) hd.2 h3⟩
    intro hm
    obtain ⟨⟨id', v'⟩, hp, he⟩ := List.mem_map.1 hm
    simp only at he
    subst he
    obtain ⟨x, hx, hg⟩ := (h3.mem _ _).1 hp
    exact hd.1 x hx (clash_of_gives hi h (hv a List.mem_cons_self) (hv x (List.mem_cons_of_mem _ hx)) h2 hg)

theorem ActValid.spawn {w : World} (h : Inv w) {s' : Entities} {r : Option (List EcsId × Bytes × Nat)}
    (hi : Inv { w with entities := s', reuse := r })
    (hl : ∀ x, w.entities.Live x → s'.Live x) {a : BAct} (ha : ActValid w a) : ActValid { w with entities := s', reuse := r } a := by
  have hinf : ∀ c m, w.InfoIs c m → World.InfoIs { w with entities := s', reuse := r } c m := by
    intro c m hm
    rw [infoIs_iff h] at hm
    rw [infoIs_iff hi]
    exact hm
  cases a with
  | «with» t v => exact ⟨ha.1, fun c hc => alive_iff.2 (hl c (alive_iff.1 (ha.2 c hc)))⟩
  | withDynamic id => obtain ⟨m, h1, h2⟩ := ha; exact ⟨m, hinf _ _ h1, h2⟩
  | withDynamicWithData id v => obtain ⟨m, h1, h2⟩ := ha; exact ⟨m, hinf _ _ h1, h2⟩
  | build => exact ha

/-- The world in which the chain of calls of `spawnWith` starts. -/
theorem chain_start {w : World} (h : Inv w) (hn : w.Ready) {kind : SpawnKind} {e : EcsId} {w1 w2 : World} {b : Builder}
    (x1 : spawnId w = .ok e w1) (x2 : mkBuilder kind e w1 = .ok b w2) {as : List BAct} (hv : ∀ a ∈ as, ActValid w a) :
    Inv w2 ∧ w2.Ready ∧ Packed b [] ∧ b.entity = e ∧ w2.entities.Live e ∧ ¬ w2.Row e ∧
      w2.entities.generations.length ≤ w.entities.generations.length + 1 ∧ w2.typeMap = w.typeMap ∧ ∀ a ∈ as, ActValid w2 a := by
  obtain ⟨s', rfl, i1, n1, l1, f1, k1, u1, m1⟩ := (spawnId_spec h hn).ok x1
  have hlen := (spawnId_len w).ok x1
  obtain ⟨r, rfl, p1, p2, p3, p4⟩ := (mkBuilder_spec i1 kind e).ok x2
  have i2 : Inv { w with entities := s', reuse := r } := i1.withReuse p4
  refine ⟨i2, n1.1, p1, p2, (l1 e).2 (Or.inr rfl), ?_, hlen, rfl, fun a ha => (hv a ha).spawn h i2 (fun x hx => (l1 x).2 (Or.inl hx))⟩
  intro hr
  have : w.Row e := hr
  exact u1 (h.row_live this).kept

theorem chainOk_valid {w : World} (h : Inv w) (hn : w.Ready) {kind : SpawnKind} {as : List BAct}
    (hv : ∀ a ∈ as, ActValid w a) (hd : Distinct w as) : ChainOk w kind (as ++ [.build]) := by
  intro e w1 b w2 x1 x2
  obtain ⟨i2, n2, p1, p2, le, nr, _, ht, hv2⟩ := chain_start h hn x1 x2 hv
  have hcalls := callsOk_valid as i2 n2 p1.blk hv2
  have hd2 : Distinct w2 as := by
    refine List.Pairwise.imp ?_ hd
    intro a b hab hc
    apply hab
    rcases hc with hc | ⟨c, h1, h2⟩
    · exact Or.inl hc
    · refine Or.inr ⟨c, ?_, ?_⟩
      · cases a <;> simpa [Names, ht] using h1
      · cases b <;> simpa [Names, ht] using h2
  have hnb : .build ∉ as := fun hb => (hv _ hb).ne rfl
  intro pre a post e' b1 w3 hr
  rcases List.eq_nil_or_concat post with rfl | ⟨post', y, rfl⟩
  · have := List.append_inj' e' rfl
    obtain ⟨rfl, hab⟩ := this
    injection hab with hab; subst hab
    obtain ⟨g, _, vals, v1, v2, v3⟩ := (acts_spec as i2 n2 p1.blk hcalls (Or.inr hnb)).ok hr
    refine ⟨?_, ?_⟩
    · rw [v2.entity, p2, g.row]
      rintro (hh | hh)
      · exact nr hh
      · exact g.unknown e hh le.kept
    · rw [v2.ids, p1.ids]
      exact nodup_of_distinct i2 g hv2 hd2 v1
  · rw [List.concat_eq_append, ← List.cons_append, ← List.append_assoc] at e'
    have := List.append_inj' e' rfl
    exact hcalls pre a post' this.1 b1 w3 hr

/-- A chain of valid distinct calls that fits into memory does not panic. -/
theorem chain_succeeds {w : World} (h : Inv w) (hn : w.Ready) {kind : SpawnKind} {as : List BAct}
    (hv : ∀ a ∈ as, ActValid w a) (hd : Distinct w as) (hf : Fits w kind as) :
    ∃ e w', spawnWith kind (as ++ [.build]) w = .ok e w' := by
  have hs := spawnWith_spec h hn (chainOk_valid h hn (kind := kind) hv hd)
  cases hx : spawnWith kind (as ++ [.build]) w with
  | ok e w' => exact ⟨e, w', rfl⟩
  | error f w' =>
    exfalso
    rcases hs.error hx with hfail | ⟨_, _, hno⟩
    · rcases hfail.made with ⟨_, h1, _⟩ | ⟨e, _, ⟨n, h1, h2⟩, _⟩ | ⟨e, w1, b, w2, pre, a, post, b1, w3, x1, x2, e', hr, href, _⟩
      · have := hf.ids; omega
      · rw [hf.cap n h1] at h2; cases h2
      · obtain ⟨i2, n2, p1, p2, le, nr, hlen, ht, hv2⟩ := chain_start h hn x1 x2 hv
        rcases List.eq_nil_or_concat post with rfl | ⟨post', y, rfl⟩
        · have := List.append_inj' e' rfl
          obtain ⟨_, hab⟩ := this
          injection hab with hab; subst hab
          exact href.1.elim
        · rw [List.concat_eq_append, ← List.cons_append, ← List.append_assoc] at e'
          have hsplit := (List.append_inj' e' rfl).1
          have hvp : ∀ x ∈ pre, ActValid w2 x := fun x hx => hv2 x (by rw [hsplit]; exact List.mem_append_left _ hx)
          obtain ⟨g, g2, g3⟩ := acts_bounds pre i2 n2 p1.blk hvp hr
          have ha2 : ActValid w2 a := hv2 a (by rw [hsplit]; exact List.mem_append_right _ List.mem_cons_self)
          have ha := ha2.grow i2 g
          have hids := hf.ids
          have hbytes := hf.bytes
          have hb0 : b.len = 0 := by
            have := congrArg List.length p1.data
            rw [List.length_take, p1.block, Nat.min_eq_left p1.len] at this
            simpa using this
          rw [hsplit] at hids hbytes
          simp only [List.length_append, List.length_cons, List.map_append, List.map_cons, List.sum_append, List.sum_cons] at hids hbytes
          cases a with
          | «with» t v =>
            rcases href with ⟨_, h1, _⟩ | ⟨_, id, h1, h2⟩ | ⟨_, h1⟩
            · omega
            · exact h2 (ha.2 id h1)
            · have h2 := h1.bound
              have h3 : actBytes (.with t v) = v.length := rfl
              rw [h3, ha.1] at hbytes
              omega
          | withDynamic id =>
            obtain ⟨m, m1, m2⟩ := ha
            have hrow := ((infoIs_iff g.inv).1 m1).1
            rcases href with ⟨_, h1⟩ | ⟨_, h1⟩ | ⟨_, m', h1, h2⟩
            · have := alive_iff.2 (g.inv.row_live hrow)
              unfold World.Alive at this
              rw [h1] at this; cases this
            · exact h1 hrow
            · have := m1.uniq h1; subst this; exact h2 m2
          | withDynamicWithData id v =>
            obtain ⟨m, m1, m2⟩ := ha
            have hrow := ((infoIs_iff g.inv).1 m1).1
            rcases href with ⟨_, h1⟩ | ⟨_, h1⟩ | ⟨_, m', h1, h2⟩
            · have := alive_iff.2 (g.inv.row_live hrow)
              unfold World.Alive at this
              rw [h1] at this; cases this
            · exact h1 hrow
            · have := m1.uniq h1; subst this
              have h3 := h2.bound
              have h4 : actBytes (.withDynamicWithData id v) = v.length := rfl
              rw [h4] at hbytes
              omega
          | build => exact ha.elim
    · refine hno ⟨hf.roomy, ?_⟩
      intro t v hm
      rcases List.mem_append.1 hm with hm | hm
      · exact hf.sizes t v hm
      · simp at hm

/-- Where a chain that ends with `build` builds. -/
theorem outcome_build {w w' : World} {e : EcsId} {cm : ComponentMeta} {as : List BAct} (hnb : .build ∉ as)
    (h : Outcome w w' e cm (as ++ [.build])) : ∃ vals, ActVals w' as vals ∧ ValsOk w' vals ∧ (vals.map Prod.fst).Nodup ∧
      Made w w' e True (fun c bs => (c, bs) ∈ vals) (valEvs w' vals) cm := by
  rcases h.made with ⟨h1, _⟩ | ⟨pre, post, vals, h1, h2, h3, h4, h5, h6⟩
  · exact absurd (List.mem_append_right _ List.mem_cons_self) h1
  · have := prefix_uniq h1 hnb h2
    subst this
    exact ⟨vals, h3, h4, h5, h6⟩

end World
end Ellecs
