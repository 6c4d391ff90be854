import Verif.Spec.Endless
import Verif.Proofs.Fate
import Verif.Proofs.Lasting
import Verif.Proofs.Query
/-!
# Conversations without a bound on recycling
-/
namespace Ellecs
namespace World
open WorldSpec

/-! ## Locks -/

/-- A lock belongs to a component in use or to an entity that is alive but was never built (see C26). -/
def Locked (w : World) : Prop := ∀ c, w.lockLookup c ≠ none → w.Used c ∨ (w.entities.Live c ∧ ¬ w.Row c)

theorem Made.locked {w w' : World} {e : EcsId} {b : Prop} {P : EcsId → Bytes → Prop} {E : List DropEv} {cm : ComponentMeta}
    (h : Made w w' e b P E cm) (ht : Locked w) : Locked w' := by
  intro c hc
  rw [h.used]
  rcases h.tight c hc with hh | hh
  · rcases ht c hh with h1 | ⟨h1, h2⟩
    · exact Or.inl (Or.inl h1)
    · refine Or.inr ⟨(h.live c).2 (Or.inl h1), ?_⟩
      rw [h.row]
      rintro (h3 | h3 | ⟨_, h3⟩)
      · exact h2 h3
      · exact h.newUnknown c h3 h1.kept
      · subst h3; exact h.unknown h1.kept
  · exact Or.inl (Or.inr hh)

theorem Grow.locked {w w' : World} (h : Grow w w') (ht : Locked w) : Locked w' := by
  intro c hc
  rw [h.used]
  rcases ht c (h.tight c hc) with h1 | ⟨h1, h2⟩
  · exact Or.inl h1
  · refine Or.inr ⟨(h.live c).2 (Or.inl h1), ?_⟩
    rw [h.row]
    rintro (h3 | h3)
    · exact h2 h3
    · exact h.unknown c h3 h1.kept

theorem Upd.locked {w w' : World} {e : EcsId} {P : EcsId → Bytes → Prop} (h : Upd w w' e P) (ht : Locked w) : Locked w' := by
  intro c hc
  rcases h.tight c hc with hh | ⟨bs, hh⟩
  · rcases ht c hh with h1 | ⟨h1, h2⟩
    · exact Or.inl (h.used c h1)
    · exact Or.inr ⟨by rw [h.ent]; exact h1, by rw [h.row]; exact h2⟩
  · exact Or.inl (has_used h.inv ((h.self c bs).2 hh))

theorem Same.locked {w w' : World} (hi : Inv w) (h : Same w w') {c : EcsId} (hl : w.entities.Live c) (hc : compOf w.metas c.uindex = none)
    (hx : ∀ x, w'.lockLookup x ≠ none → w.lockLookup x ≠ none ∨ x = c) (ht : Locked w) : Locked w' := by
  intro x hxl
  rcases hx x hxl with hh | rfl
  · rcases ht x hh with h1 | ⟨h1, h2⟩
    · exact Or.inl (h.used h1)
    · exact Or.inr ⟨by rw [h.ent]; exact h1, by rw [h.hasRow]; exact h2⟩
  · refine Or.inr ⟨by rw [h.ent]; exact hl, ?_⟩
    rw [h.hasRow]
    rintro hr
    obtain ⟨k, r, hr⟩ := (row_iff x).1 hr
    have := (hi.loc.ent k r x hr).2
    rw [inst_none_iff_comp.2 hc] at this
    cases this

theorem Gone.locked {w w' : World} {e : EcsId} (h : Gone w w' e) (he : w.Row e) (ht : Locked w) : Locked w' := by
  intro c hc
  rw [h.look] at hc
  rcases ht c hc with h1 | ⟨h1, h2⟩
  · exact Or.inl (used_of_ids h.ids h1)
  · refine Or.inr ⟨(h.live c).2 ⟨h1, ?_⟩, by rw [h.row]; exact fun hh => h2 hh.1⟩
    rintro rfl; exact h2 he

/-- One call. -/
theorem exec_locked {w : World} (h : Inv w) (hn : w.Ready) {c : Call} (hc : c.Ok w) (ht : Locked w) :
    Tri c.exec w (fun _ w' => Locked w') (fun f w' => Stop f ∨ Locked w') := by
  cases c with
  | spawn kind acts =>
    unfold Call.exec
    rw [tri_bind]
    refine (spawnWith_spec h hn hc).imp ?_ ?_
    · rintro e w' ⟨_, ⟨_, hm⟩ | ⟨pre, post, vals, v1, v2, v3, v4, v5, hm⟩⟩
      · rw [tri_pure]; exact hm.locked ht
      · rw [tri_pure]; exact hm.locked ht
    · rintro f w' (⟨_, ⟨rfl, _, hg, _⟩ | ⟨e, rfl, _, hm⟩ | ⟨e, w1, b, w2, pre, a, post, b1, w3, x1, x2, x3, x4, x5, hm | ⟨pre', post', vals, v1, v2, v3, v4, v5, hm⟩⟩⟩ | ⟨hl, _⟩)
      · exact Or.inr (hg.locked ht)
      · exact Or.inr (hm.locked ht)
      · exact Or.inr (hm.2.locked ht)
      · exact Or.inr (hm.locked ht)
      · exact Or.inl (Or.inl hl)
  | addComponent e t v =>
    refine (addComponent_spec h hn e t hc).imp ?_ ?_
    · rintro _ w' ⟨hl, id, w1, hg, ⟨hd, rfl⟩ | ⟨hr, hl', hnc, hlog, hu, hev⟩⟩
      · exact hg.grow.locked ht
      · exact hu.locked (hg.grow.locked ht)
    · rintro f w' (⟨w0, rfl, ⟨rfl, hf⟩ | ⟨rfl, _, _, hg, _⟩⟩ | ⟨id, w1, hg, hl, ⟨rfl, _, _, rfl⟩ | ⟨rfl, _, _, _, rfl⟩ | ⟨hlim, _⟩⟩)
      · exact Or.inr ht
      · exact Or.inr (show Locked _ from (hg.locked ht : Locked w0))
      · exact Or.inr (hg.grow.locked ht)
      · exact Or.inr (hg.grow.locked ht)
      · exact Or.inl (Or.inl hlim)
  | removeComponent e t =>
    refine (removeComponent_spec h hn e t).imp ?_ ?_
    · rintro _ w' ⟨hl, id, hty, ⟨hd, rfl⟩ | ⟨hr, hl', bs, hh, hlog, hu, hev⟩⟩
      · exact ht
      · exact hu.locked ht
    · rintro f w' (⟨rfl, _, rfl⟩ | ⟨rfl, _, rfl⟩ | ⟨rfl, _, _, hg, _⟩ | ⟨id, w1, hg, _, ⟨rfl, _, _, rfl⟩ | ⟨rfl, _, _, _, rfl⟩ | ⟨hlim, _⟩⟩)
      · exact Or.inr ht
      · exact Or.inr ht
      · exact Or.inr (hg.locked ht)
      · exact Or.inr (hg.grow.locked ht)
      · exact Or.inr (hg.grow.locked ht)
      · exact Or.inl (Or.inl hlim)
  | addDynamic e c =>
    refine (addZst_spec h e c).imp ?_ ?_
    · rintro _ w' ⟨hr, hnc, hlog, m, hm, hz, hu, hev⟩
      exact hu.locked ht
    · rintro f w' (⟨rfl, hf⟩ | ⟨hlim, _⟩)
      · exact Or.inr ht
      · exact Or.inl (Or.inl hlim)
  | addDynamicWithData e c src =>
    have hlive : ∀ m, w.entities.Live c → compOf w.metas c.uindex = some m → m.layout.size ≤ src.length := by
      intro m hl hm
      refine hc m ((infoIs_iff h).2 ⟨?_, hm⟩)
      rcases getEntityMeta_spec h c with ⟨g1, g2⟩ | ⟨g1, g2⟩ | ⟨g1, g2, g3, g4⟩ | ⟨im, cm, g1, g2, g3, g4, g5⟩
      · have := hl.lt; omega
      · exact absurd hl g2
      · rw [inst_none_iff_comp.1 g3] at hm; cases hm
      · exact (row_iff c).2 ⟨_, _, g5⟩
    refine (addDyn_spec h e c hlive).imp ?_ ?_
    · rintro _ w' (⟨hd, rfl⟩ | ⟨hl, hr, hlc, hnc, hlog, m, hm, hu, hev⟩)
      · exact ht
      · exact hu.locked ht
    · rintro f w' (⟨rfl, _, rfl⟩ | ⟨rfl, _, _, rfl⟩ | ⟨rfl, _, _, _, rfl⟩ | ⟨rfl, _, hl, hm, hi, hs, hx⟩ | ⟨hlim, _⟩)
      · exact Or.inr ht
      · exact Or.inr ht
      · exact Or.inr ht
      · exact Or.inr (hs.locked h hl hm hx.1 ht)
      · exact Or.inl (Or.inl hlim)
  | removeDynamic e c =>
    refine (removeDyn_spec h e c).imp ?_ ?_
    · rintro _ w' (⟨hd, rfl⟩ | ⟨hl, hr, hlc, m, bs, hm, hh, hlog, hu, hev⟩)
      · exact ht
      · exact hu.locked ht
    · rintro f w' (⟨rfl, _, rfl⟩ | ⟨rfl, _, _, rfl⟩ | ⟨rfl, _, _, _, rfl⟩ | ⟨hlim, _⟩)
      · exact Or.inr ht
      · exact Or.inr ht
      · exact Or.inr ht
      · exact Or.inl (Or.inl hlim)
  | despawn e =>
    unfold Call.exec
    rw [tri_bind]
    refine (despawn_spec h e).imp ?_ ?_
    · rintro b w' (⟨_, _, rfl⟩ | ⟨_, _, hro, _, hg, evs, L, hd, hlog, hev⟩)
      · rw [tri_pure]; exact ht
      · rw [tri_pure]; exact hg.locked hro ht
    · rintro f w' ⟨rfl, hf⟩
      exact Or.inr ht
  | register t =>
    unfold Call.exec
    rw [tri_bind]
    refine (getOrCreate_spec h hn t).imp ?_ ?_
    · rintro id w' ⟨hg, _⟩
      rw [tri_pure]; exact hg.locked ht
    · rintro f w' ⟨rfl, _, _, hg, _⟩
      exact Or.inr (hg.locked ht)
  | write e c bs =>
    unfold Call.exec
    simp only [tri_bind, tri_get, tri_liftE]
    rcases getComponentMut_spec h e c with ⟨h1, h2⟩ | ⟨h1, h2⟩ | ⟨h1, h2, h3, h4⟩ | ⟨p, h1, hp⟩
    · rw [h1]; exact Or.inr ht
    · rw [h1]; simp only [tri_pure]; exact ht
    · rw [h1]; exact Or.inr ht
    · rw [h1]
      simp only [tri_step]
      obtain ⟨m, hm⟩ := hp.info h
      obtain ⟨w', w1, w2⟩ := writePtr_spec h hp hm (hc m hm)
      rw [w1]
      intro c' hc'
      rw [w2.look] at hc'
      rcases ht c' hc' with q1 | ⟨q1, q2⟩
      · exact Or.inl (used_of_ids w2.ids q1)
      · exact Or.inr ⟨by rw [w2.ent]; exact q1, by rw [w2.row]; exact q2⟩
  | query ps b =>
    unfold Call.exec
    rw [tri_bind]
    unfold Tri World.query
    cases hf : allFetches w ps with
    | none => exact ht
    | some fs =>
      simp only
      cases ha : acquireAllStatic w [] w.locks fs with
      | ok x => exact ht
      | error x => exact Or.inr ht
  | queryDynamic fs b =>
    unfold Call.exec
    rw [tri_bind]
    unfold Tri World.queryDynamic
    cases ha : acquireAllDyn w [] false w.locks fs with
    | ok x => exact ht
    | error x => exact Or.inr ht

/-! ## Histories -/

theorem Endless.lasting {w : World} (h : Endless w) : Lasting w [] := by
  induction h with
  | new => exact .new
  | ok c _ hc hs he ih => exact .ok c ih hc hs he
  | panic c f _ hc hs he hl hd ih => exact .panic c f ih hc hs he hl hd

theorem Endless.inv {w : World} (h : Endless w) : SafeInv w [] := h.lasting.both.1.inv

theorem Endless.locked {w : World} (h : Endless w) : Locked w := by
  induction h with
  | new => intro c hc; exact absurd rfl hc
  | ok c h1 hc hs he ih => exact (exec_locked h1.inv.inv h1.inv.ready hc ih).ok he
  | panic c f h1 hc hs he hl hd ih =>
    rcases (exec_locked h1.inv.inv h1.inv.ready hc ih).error he with (hx | hx) | ht
    · exact absurd hx hl
    · exact absurd hx hd
    · exact ht

theorem live_type_row {w : World} (hi : Inv w) {t : Ty} {id : EcsId} (h : w.typeMap t = some id) (hl : w.entities.Live id) : w.Row id := by
  have hm := hi.type.comp t id h hl
  rcases getEntityMeta_spec hi id with ⟨g1, g2⟩ | ⟨g1, g2⟩ | ⟨g1, g2, g3, g4⟩ | ⟨im, cm, g1, g2, g3, g4, g5⟩
  · have := hl.lt; omega
  · exact absurd hl g2
  · rw [inst_none_iff_comp.1 g3] at hm; cases hm
  · exact (row_iff id).2 ⟨_, _, g5⟩

theorem Endless.typesUsed {w : World} (h : Endless w) {t : Ty} {c : EcsId} (ht : w.typeMap t = some c) (hl : w.lockLookup c ≠ none) : w.Used c := by
  rcases h.locked c hl with hh | ⟨_, hh⟩
  · exact hh
  · exact absurd (live_type_row h.inv.inv ht (h.lasting.both.2 t c ht)) hh

theorem Endless.locksUsed {w : World} (h : Endless w) {fs : List Fetch} (hb : ∀ f ∈ fs, ∀ c, f.Of c → w.Row c) : LocksUsed w fs := by
  intro f hf c hc hl
  rcases h.locked c hl with hh | ⟨_, hh⟩
  · exact hh
  · exact absurd (hb f hf c hc) hh

/-! ## Conversations -/

theorem ask_spares (q : Ask) {w : World} (hs : w.SparesAsk q) : ∀ c, q.asCall = some c → w.Spares c := by
  cases q with
  | call c => intro c' hc'; cases hc'; intro t id ht hh; exact (hs t id ht).2 (by rw [hh])
  | despawn e => intro c' hc'; cases hc'; intro t id ht hh; injection hh with hh; exact (hs t id ht).1 (by rw [hh])
  | spawn kind xs => intro c' hc'; cases hc'; intro t id ht hh; cases hh
  | register t => intro c' hc'; cases hc'; intro t id ht hh; cases hh
  | isAlive e => intro c' hc'; cases hc'
  | has t e => intro c' hc'; cases hc'
  | look e c n => intro c' hc'; cases hc'

theorem ask_endless {q : Ask} {w : World} (hw : Endless w) (hq : q.Ok w) (hs : w.SparesAsk q) :
    (∀ x w', q.exec w = .ok x w' → Endless w') ∧ (∀ f w', q.exec w = .error f w' → ¬ Limit f → f ≠ .deadlock → Endless w') := by
  obtain ⟨k1, k2⟩ := ask_asCall q w
  cases hc : q.asCall with
  | none =>
    obtain ⟨n1, n2⟩ := k2 hc
    refine ⟨fun x w' h => ?_, fun f w' h _ _ => ?_⟩
    · rw [n1 x w' h]; exact hw
    · rw [n2 f w' h]; exact hw
  | some c =>
    obtain ⟨n1, n2⟩ := k1 c hc
    have h1 := ask_callOk hq c hc
    have h2 := ask_spares q hs c hc
    exact ⟨fun x w' h => .ok c hw h1 h2 (n1 x w' h), fun f w' h hl hd => .panic c f hw h1 h2 (n2 f w' h) hl hd⟩

theorem LongTalk.endless {w w' : World} {tr : List (Ask × Except Fault Answer)} (hw : Endless w) (h : LongTalk w tr w') : Endless w' := by
  induction h with
  | done w => exact hw
  | ok h1 h2 h3 _ ih => exact ih ((ask_endless hw h1 h2).1 _ _ h3)
  | panic h1 h2 h3 h4 h5 _ ih => exact ih ((ask_endless hw h1 h2).2 _ _ h3 (fun hh => h4 (Or.inl hh)) h5)

theorem LongTalk.shows {w w' : World} {tr : List (Ask × Except Fault Answer)} (hw : Endless w) (h : LongTalk w tr w') :
    ∀ {a : AWorld}, w.Shows a → ((a.answers (tr.map Prod.fst)).1 = tr.map Prod.snd ∧ w'.Shows (a.answers (tr.map Prod.fst)).2) ∧
      ∃ evs, w'.log = w.log ++ evs ∧ a.Fates (tr.map Prod.fst) evs := by
  induction h with
  | done w => intro a ha; exact ⟨⟨rfl, ha⟩, [], (List.append_nil _).symm, rfl⟩
  | @ok w w1 w2 q x rest h1 h2 h3 _ ih =>
    intro a ha
    have hs := hw.inv
    obtain ⟨s1, s2⟩ := (sim_ask hs.inv hs.ready hs.held ha h1).ok h3
    obtain ⟨e1, l1, d1⟩ := (ask_log hs.inv hs.ready ha q h1).ok h3
    obtain ⟨⟨k1, k2⟩, e2, l2, d2⟩ := ih ((ask_endless hw h1 h2).1 _ _ h3) s2
    refine ⟨?_, e1 ++ e2, by rw [l2, l1, List.append_assoc], e1, e2, rfl, d1, d2⟩
    simp only [List.map_cons, AWorld.answers]
    rw [pair_eq s1]
    exact ⟨by simp only [k1], k2⟩
  | @panic w w1 w2 q x rest h1 h2 h3 h4 h5 _ ih =>
    intro a ha
    have hs := hw.inv
    obtain ⟨s1, s2⟩ := ((sim_ask hs.inv hs.ready hs.held ha h1).error h3).resolve_left h4
    rcases (ask_log hs.inv hs.ready ha q h1).error h3 with hl | ⟨e1, l1, d1⟩
    · exact absurd (Or.inl hl) h4
    obtain ⟨⟨k1, k2⟩, e2, l2, d2⟩ := ih ((ask_endless hw h1 h2).2 _ _ h3 (fun hh => h4 (Or.inl hh)) h5) s2
    refine ⟨?_, e1 ++ e2, by rw [l2, l1, List.append_assoc], e1, e2, rfl, d1, d2⟩
    simp only [List.map_cons, AWorld.answers]
    rw [pair_eq s1]
    exact ⟨by simp only [k1], k2⟩

theorem LongTalk.append {u v w : World} {xs ys : List (Ask × Except Fault Answer)} (h : LongTalk u xs v) (h' : LongTalk v ys w) : LongTalk u (xs ++ ys) w := by
  induction h with
  | done => exact h'
  | ok h1 h2 h3 _ ih => exact .ok h1 h2 h3 (ih h')
  | panic h1 h2 h3 h4 h5 _ ih => exact .panic h1 h2 h3 h4 h5 (ih h')

end World
end Ellecs
