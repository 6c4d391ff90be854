import Verif.Proofs.Database
import Verif.Props.Program
/-!
# The logic of scripts is sound

A script is followed in the logic of programs (C65); its database, and the tables there are for its combinations of types,
are kept in `Sim`.
-/
namespace Ellecs
open World

/-- The lists `S` of component ids stand for the lists `D` of types. -/
structure ShapesAt (sc : Scope) (L : List Ty) (D : List (List Ty)) (S : List (List EcsId)) (a : AWorld) : Prop where
  nodup : D.Nodup
  mem : ∀ l ∈ D, l ∈ sc.shapes
  len : S.length ≤ D.length
  empty : ∃ l ∈ S, ∀ c, c ∉ l
  known : ∀ l ∈ D, ∀ t ∈ l, t ∈ L
  ids : ∀ l ∈ D, ∃ l' ∈ S, ∀ c, c ∈ l' ↔ ∃ t ∈ l, a.types t = some c

/-- The scene is what is in the maps. -/
def Sim (sc : Scope) (sn : Scene) (S : List (List EcsId)) (a : AWorld) : Prop :=
  ∃ L D, DbAt L sn.spawned sn.dead.length sn.db a ∧ (∀ t ∈ L, t ∈ sc.types) ∧ ShapesAt sc L D S a ∧
    (∀ x ∈ sn.db, ∃ l ∈ D, ∀ t, t ∈ l ↔ t ∈ x.2.map Prod.fst) ∧ ∀ e ∈ sn.dead, Gone a.ents e

theorem shaped_of {sc : Scope} {L : List Ty} {k d : Nat} {db : Db} {D : List (List Ty)} {S : List (List EcsId)} {a : AWorld} (h : DbAt L k d db a)
    (hS : ShapesAt sc L D S a) (hD : ∀ x ∈ db, ∃ l ∈ D, ∀ t, t ∈ l ↔ t ∈ x.2.map Prod.fst) : a.Shaped S := by
  intro e he
  by_cases hk : e ∈ db.map Prod.fst
  · obtain ⟨r, hr⟩ := lookup_isSome hk
    obtain ⟨l, h1, h2⟩ := hD (e, r) ((lookup_some h.keys).1 hr)
    obtain ⟨l', h3, h4⟩ := hS.ids l h1
    refine ⟨l', h3, fun c => (h4 c).trans ?_⟩
    have hval := h.val e
    constructor
    · rintro ⟨t, h5, h6⟩
      have := hval t
      rw [h6, hr] at this
      replace this : a.cell e c = r.lookup t := this
      rw [this]
      intro hn
      exact lookup_none.1 hn ((h2 t).1 h5)
    · intro hc
      obtain ⟨t, ht⟩ := h.typed c (h.tidy.cells e c hc).2
      refine ⟨t, (h2 t).2 ?_, ht⟩
      have := hval t
      rw [ht, hr] at this
      replace this : a.cell e c = r.lookup t := this
      apply Classical.byContradiction
      intro hn
      exact hc (by rw [this]; exact lookup_none.2 hn)
  · obtain ⟨l, h1, h2⟩ := hS.empty
    refine ⟨l, h1, fun c => ⟨fun hc => absurd hc (h2 c), fun hc => ?_⟩⟩
    obtain ⟨t, ht⟩ := h.typed c (h.tidy.cells e c hc).2
    have := h.val e t
    rw [ht, lookup_none.2 hk] at this
    exact absurd this hc

/-- One more combination of types at most. -/
theorem sim_step {sc : Scope} {L L' : List Ty} {D : List (List Ty)} {S : List (List EcsId)} {a a' : AWorld} {sn' : Scene} (hsub : ∀ t ∈ L, t ∈ L')
    (hreg : ∀ t, a.types t ≠ none ↔ t ∈ L) (hty : ∀ t c, a.types t = some c → a'.types t = some c) (hS : ShapesAt sc L D S a)
    (h : DbAt L' sn'.spawned sn'.dead.length sn'.db a') (hL : ∀ t ∈ L', t ∈ sc.types) (hg : ∀ e ∈ sn'.dead, Gone a'.ents e)
    {l0 : List Ty} (h0 : l0 ∈ sc.shapes) (h0' : ∀ t ∈ l0, t ∈ L')
    (hD : ∀ x ∈ sn'.db, (∃ l ∈ D, ∀ t, t ∈ l ↔ t ∈ x.2.map Prod.fst) ∨ ∀ t, t ∈ l0 ↔ t ∈ x.2.map Prod.fst) :
    ∃ T, a'.Shaped (T ++ S) ∧ Sim sc sn' (T ++ S) a' := by
  have hids : ∀ l ∈ D, ∃ l' ∈ S, ∀ c, c ∈ l' ↔ ∃ t ∈ l, a'.types t = some c := by
    intro l hl
    obtain ⟨l', h1, h2⟩ := hS.ids l hl
    refine ⟨l', h1, fun c => (h2 c).trans ?_⟩
    constructor
    · rintro ⟨t, h3, h4⟩; exact ⟨t, h3, hty t c h4⟩
    · rintro ⟨t, h3, h4⟩
      refine ⟨t, h3, ?_⟩
      cases hc : a.types t with
      | none => exact absurd hc ((hreg t).2 (hS.known l hl t h3))
      | some c' => rw [hty t c' hc] at h4; exact h4
  have fin : ∀ (D' : List (List Ty)) (T : List (List EcsId)), ShapesAt sc L' D' (T ++ S) a' →
      (∀ x ∈ sn'.db, ∃ l ∈ D', ∀ t, t ∈ l ↔ t ∈ x.2.map Prod.fst) → ∃ T, a'.Shaped (T ++ S) ∧ Sim sc sn' (T ++ S) a' :=
    fun D' T h1 h2 => ⟨T, shaped_of h h1 h2, L', D', h, hL, h1, h2, hg⟩
  by_cases hin : l0 ∈ D
  · apply fin D []
    · exact ⟨hS.nodup, hS.mem, hS.len, hS.empty, fun l hl t ht => hsub t (hS.known l hl t ht), hids⟩
    · intro x hx
      rcases hD x hx with h1 | h1
      · exact h1
      · exact ⟨l0, hin, h1⟩
  · apply fin (l0 :: D) [l0.filterMap a'.types]
    · refine ⟨List.nodup_cons.2 ⟨hin, hS.nodup⟩, ?_, ?_, ?_, ?_, ?_⟩
      · intro l hl
        rcases List.mem_cons.1 hl with rfl | hl
        · exact h0
        · exact hS.mem l hl
      · rw [List.length_append, List.length_cons, List.length_cons, List.length_nil]
        have := hS.len
        omega
      · obtain ⟨l, h1, h2⟩ := hS.empty
        exact ⟨l, List.mem_append_right _ h1, h2⟩
      · intro l hl t ht
        rcases List.mem_cons.1 hl with rfl | hl
        · exact h0' t ht
        · exact hsub t (hS.known l hl t ht)
      · intro l hl
        rcases List.mem_cons.1 hl with rfl | hl
        · exact ⟨_, List.mem_append_left _ (List.mem_singleton.2 rfl), fun c => List.mem_filterMap⟩
        · obtain ⟨l', h1, h2⟩ := hids l hl
          exact ⟨l', List.mem_append_right _ h1, h2⟩
    · intro x hx
      rcases hD x hx with ⟨l, h1, h2⟩ | h1
      · exact ⟨l, List.mem_cons_of_mem _ h1, h2⟩
      · exact ⟨l0, List.mem_cons_self, h1⟩

/-- The same combinations of types. -/
theorem sim_same {sc : Scope} {L : List Ty} {D : List (List Ty)} {S : List (List EcsId)} {a a' : AWorld} {sn' : Scene} (hty : a'.types = a.types)
    (hS : ShapesAt sc L D S a) (h : DbAt L sn'.spawned sn'.dead.length sn'.db a') (hL : ∀ t ∈ L, t ∈ sc.types) (hg : ∀ e ∈ sn'.dead, Gone a'.ents e)
    (hD : ∀ x ∈ sn'.db, ∃ l ∈ D, ∀ t, t ∈ l ↔ t ∈ x.2.map Prod.fst) : a'.Shaped S ∧ Sim sc sn' S a' := by
  have hS' : ShapesAt sc L D S a' := ⟨hS.nodup, hS.mem, hS.len, hS.empty, hS.known, by rw [hty]; exact hS.ids⟩
  exact ⟨shaped_of h hS' hD, L, D, h, hL, hS', hD, hg⟩

theorem mem_learnAll (ts : List Ty) : ∀ {L : List Ty} {t : Ty}, t ∈ ts.foldl learn L ↔ t ∈ ts ∨ t ∈ L := by
  induction ts with
  | nil => intro L t; simp
  | cons x ts ih =>
    intro L t
    rw [List.foldl_cons, ih, mem_learn, List.mem_cons]
    constructor
    · rintro (h | h | h)
      · exact .inl (.inr h)
      · exact .inl (.inl h)
      · exact .inr h
    · rintro ((h | h) | h)
      · exact .inr (.inl h)
      · exact .inl h
      · exact .inr (.inr h)

/-- One operation, then the rest of a client. -/
theorem client_bind {α β : Type} {s : Nat} {S : List (List EcsId)} {a : AWorld} (x : Client α) (f : α → Client β) {Q : List (List EcsId) → Except Fault β → AWorld → Prop} :
    Prog.wp s S (x >>= f : Client β) a Q ↔ Prog.wp s S x a (fun S r a => Prog.wp s S (match r with | .ok y => f y | .error e => Prog.done (.error e)) a Q) := by
  refine Iff.trans (WorldSpec.C65_bind x (ExceptT.bindCont f)) ?_
  constructor <;> refine WorldSpec.C65_mono x ?_
  all_goals
    intro S r a h
    cases r <;> exact h

theorem len_types {sc : Scope} {L : List Ty} (hn : L.Nodup) (hL : ∀ t ∈ L, t ∈ sc.types) : L.length ≤ sc.types.length := hn.length_le_of_subset hL

theorem see_keys {ps : List Param} {f : List AWorld.Seen → List (Option Bytes)} {e : EcsId} {r : Fields} : (r.run ps f e).map Prod.fst = r.map Prod.fst := by
  unfold Fields.run
  split
  · rfl
  · exact Fields.store_keys ps r _

theorem update_mem {db : Db} {e : EcsId} {g : Fields → Fields} {x : EcsId × Fields} (h : x ∈ db.update e g) :
    ∃ y ∈ db, y.1 = x.1 ∧ ((x.1 = e ∧ x.2 = g y.2) ∨ (x.1 ≠ e ∧ x.2 = y.2)) := by
  obtain ⟨y, h1, h2⟩ := List.mem_map.1 h
  refine ⟨y, h1, ?_⟩
  by_cases hy : y.1 = e
  · rw [if_pos hy] at h2
    subst h2
    exact ⟨hy, .inl ⟨rfl, rfl⟩⟩
  · rw [if_neg hy] at h2
    subst h2
    exact ⟨rfl, .inr ⟨hy, rfl⟩⟩

theorem visit_shapes {ps : List Param} {f : List AWorld.Seen → List (Option Bytes)} (es : List EcsId) : ∀ {db : Db} {x : EcsId × Fields}, x ∈ db.visit ps f es →
    ∃ y ∈ db, y.2.map Prod.fst = x.2.map Prod.fst := by
  induction es with
  | nil => exact fun {db x} h => ⟨x, h, rfl⟩
  | cons e es ih =>
    intro db x h
    obtain ⟨y, h1, h2⟩ := ih (db := db.update e (Fields.run ps f e)) h
    obtain ⟨z, h3, h4, h5⟩ := update_mem h1
    refine ⟨z, h3, h2 ▸ ?_⟩
    rcases h5 with ⟨_, h5⟩ | ⟨_, h5⟩
    · rw [h5, see_keys]
    · rw [h5]

theorem each_typed {ps : List Param} {f : List AWorld.Seen → List (Option Bytes)} (h : FitsTypes ps f) : (Body.log (eachBody f)).Typed ps := by
  intro st ss i t bs h1 h2
  exact h ss i t bs h1 h2

theorem get_typed {ps : List Param} {f : List AWorld.Seen → List (Option Bytes)} (h : FitsTypes ps f) : Prog.VisitTyped ps (getBody f) := by
  intro hs i t bs h1 h2
  cases hs with
  | nil => cases h2
  | cons x hs =>
    cases x with
    | none => cases h2
    | some ss => exact h ss i t bs h1 h2

theorem asks_ne {ps : List Param} (h : AsksType ps) : ps ≠ [] := by
  rintro rfl
  obtain ⟨t, h | h⟩ := h <;> cases h

theorem learnAll_nodup (ts : List Ty) : ∀ {L : List Ty}, L.Nodup → (ts.foldl learn L).Nodup := by
  induction ts with
  | nil => exact fun h => h
  | cons t ts ih => exact fun h => ih (learn_nodup h t)

/-- An operation that is one call. -/
theorem ask_wp {β γ : Type} {s : Nat} {S : List (List EcsId)} {a a' : AWorld} {q : Ask} {g : Except Fault Answer → Except Fault β} {f : β → Client γ}
    {Q : List (List EcsId) → Except Fault γ → AWorld → Prop} {r : Answer} {y : β} (hq : a.ask q = (.ok r, a')) (hok : a.AskOk s q) (hf : a'.NoFull)
    {T : List (List EcsId)} (hT : a'.Shaped (T ++ S)) (hg : g (.ok r) = .ok y) (h : Prog.wp s (T ++ S) (f y) a' Q) :
    Prog.wp s S ((Prog.ask q fun x => .done (g x) : Client β) >>= f : Client γ) a Q := by
  refine (client_bind _ f).2 ⟨hok, ?_, ?_, T, ?_⟩
  · rw [hq]; simp
  · rw [hq]; exact hf
  · rw [hq]
    refine ⟨hT, ?_⟩
    show Prog.wp s (T ++ S) (match g (.ok r) with | .ok y => f y | .error e => Prog.done (.error e)) a' Q
    rw [hg]; exact h

theorem DbAt.noFull {L : List Ty} {k d : Nat} {db : Db} {a : AWorld} (h : DbAt L k d db a) (hd : d < 2 ^ 32) : a.NoFull := h.tidy.ids.noFull hd

theorem map_fst_mem {r : Fields} {t : Ty} : t ∈ r.map Prod.fst ↔ r.lookup t ≠ none := by
  rw [Ne, lookup_none]
  simp

/-- What a script is proved to do, its program does. -/
theorem script_wp {α : Type} {sc : Scope} (hsc : sc.Ok) (p : Script α) : ∀ {sn : Scene} {S : List (List EcsId)} {a : AWorld} {Q : α → Scene → Prop}, Sim sc sn S a →
    sn.dead.length < 2 ^ 32 → sn.spawned + sc.types.length ≤ 2 ^ 32 → p.wp sc sn Q →
    Prog.wp sc.size S p.compile a (fun S r a => ∃ x sn', r = .ok x ∧ Sim sc sn' S a ∧ Q x sn') := by
  induction p with
  | done x => exact fun h _ _ hq => ⟨x, _, rfl, h, hq⟩
  | fail f => exact fun _ _ _ hq => hq.elim
  | spawn r k ih =>
    rintro sn S a Q ⟨L, D, hdb, hL, hS, hD, hg⟩ hd hsp ⟨hn, hsz, ⟨hts, l0, hl0, hl0'⟩, hk, hq⟩
    have hL' : ∀ t ∈ (r.map Prod.fst).foldl learn L, t ∈ sc.types := by
      intro t ht
      rcases (mem_learnAll _).1 ht with h | h
      · exact hts t h
      · exact hL t h
    have hrok : r.Ok sc.size := ⟨hn, hsz, fun x hx => hsc.sizes _ (hts _ (List.mem_map_of_mem hx))⟩
    have hrl : r.length < 2 ^ 32 := by
      have := len_types hn hts
      rw [List.length_map] at this
      exact Nat.lt_of_le_of_lt this hsc.types
    have hlen := len_types (learnAll_nodup (r.map Prod.fst) hdb.tidy.regs.1) hL'
    obtain ⟨e, a', h1, h2, h3, h4, h5, h6, h7, h8⟩ := hdb.spawn hsc.size hd hrok hrl (by omega)
    have hdead : e ∉ sn.dead := by
      intro hc
      have h9 : a'.isAlive e = .ok false := (h5 e (hg e hc)).alive
      rw [h7] at h9; cases h9
    obtain ⟨T, hT1, hT2⟩ := sim_step (sn' := ⟨sn.db ++ [(e, r)], sn.dead, sn.spawned + 1⟩) (fun t ht => (mem_learnAll _).2 (.inr ht)) hdb.tidy.regs.2 h8 hS h4 hL'
      (fun x hx => h5 x (hg x hx)) hl0 (fun t ht => (mem_learnAll _).2 (.inl ((hl0' t).1 ht))) (by
        intro x hx
        rcases List.mem_append.1 hx with hx | hx
        · exact .inl (hD x hx)
        · rw [List.mem_singleton.1 hx]; exact .inr hl0')
    exact ask_wp (a := a) (s := sc.size) (q := .spawn .plain (r.map (fun (x : Ty × Bytes) => BAct.with x.1 x.2) ++ [BAct.build])) (r := .id e) (y := e) (g := Client.answerId) (by simp only [AWorld.ask, h1]; rfl) h2
      (h4.noFull hd) hT1 rfl (ih e hT2 hd hk (hq e (lookup_none.1 h3) hdead))
  | add e t v k ih =>
    rintro sn S a Q ⟨L, D, hdb, hL, hS, hD, hg⟩ hd hsp ⟨r, he, ht, hv, ⟨hts, l0, hl0, hl0'⟩, hq⟩
    have htin : t ∈ sc.types := hts t (List.mem_append_right _ (List.mem_singleton.2 rfl))
    have hL' : ∀ t' ∈ learn L t, t' ∈ sc.types := by
      intro t' ht'
      rcases mem_learn.1 ht' with rfl | h
      · exact htin
      · exact hL t' h
    have hk : sn.spawned + (learn L t).length ≤ 2 ^ 32 := by
      have := len_types (learn_nodup hdb.tidy.regs.1 t) hL'
      omega
    obtain ⟨a', h1, h2, h3, h4⟩ := hdb.add hd hk he ht hv
    have hmem : ∀ t', t' ∈ r.map Prod.fst → t' ∈ L := by
      intro t' ht'
      obtain ⟨v', hv'⟩ := lookup_isSome ht'
      obtain ⟨c, hc, _⟩ := hdb.cell he hv'
      exact (hdb.tidy.regs.2 t').1 (by rw [hc]; simp)
    obtain ⟨T, hT1, hT2⟩ := sim_step (sn' := { sn with db := sn.db.update e (fun r => r ++ [(t, v)]) }) (fun t ht => mem_learn.2 (.inr ht)) hdb.tidy.regs.2 h4 hS h2 hL'
      (fun x hx => h3 x (hg x hx)) hl0 (by
        intro t' ht'
        rcases List.mem_append.1 ((hl0' t').1 ht') with h | h
        · exact mem_learn.2 (.inr (hmem t' h))
        · exact mem_learn.2 (.inl (List.mem_singleton.1 h))) (by
        intro x hx
        obtain ⟨y, q1, q2, q3⟩ := update_mem (db := sn.db) (e := e) (g := fun r => r ++ [(t, v)]) hx
        rcases q3 with ⟨q3, q4⟩ | ⟨_, q4⟩
        · right
          have : sn.db.lookup e = some y.2 := (lookup_some hdb.keys).2 (by rw [← q3, ← q2]; exact q1)
          rw [he] at this
          cases this
          rw [q4, List.map_append]
          exact hl0'
        · left; rw [q4]; exact hD y q1)
    refine ask_wp (q := .call (.addComponent e t v)) (r := .unit) (y := ()) (g := Client.answerUnit) (f := fun _ => k.compile) ?_ ⟨hv, hsc.sizes t htin⟩
      (h2.noFull hd) hT1 rfl (ih hT2 hd hsp hq)
    show (match a.addComponent e t v with | (r, a) => (Except.map _ r, a)) = _
    rw [h1]; rfl
  | remove e t k ih =>
    rintro sn S a Q ⟨L, D, hdb, hL, hS, hD, hg⟩ hd hsp ⟨r, he, ht, ⟨hts, l0, hl0, hl0'⟩, hq⟩
    cases hv : r.lookup t with
    | none => exact absurd hv ht
    | some v =>
      obtain ⟨a', h1, h2, h3, h4⟩ := hdb.remove he hv
      have hmem : ∀ t', r.lookup t' ≠ none → t' ∈ L := by
        intro t' ht'
        cases hv' : r.lookup t' with
        | none => exact absurd hv' ht'
        | some v' =>
          obtain ⟨c, hc, _⟩ := hdb.cell he hv'
          exact (hdb.tidy.regs.2 t').1 (by rw [hc]; simp)
      obtain ⟨T, hT1, hT2⟩ := sim_step (sn' := { sn with db := sn.db.update e (fun r => r.drop t) }) (fun t ht => ht) hdb.tidy.regs.2 (by rw [h4]; exact fun _ _ g => g) hS h2 hL
        (fun x hx => by rw [h3]; exact hg x hx) hl0 (by
          intro t' ht'
          have := map_fst_mem.1 ((hl0' t').1 ht')
          rw [Fields.drop_lookup] at this
          split at this
          · exact absurd rfl this
          · exact hmem t' this) (by
          intro x hx
          obtain ⟨y, q1, q2, q3⟩ := update_mem (db := sn.db) (e := e) (show x ∈ sn.db.update e _ from hx)
          rcases q3 with ⟨q3, q4⟩ | ⟨_, q4⟩
          · right
            have : sn.db.lookup e = some y.2 := (lookup_some hdb.keys).2 (by rw [← q3, ← q2]; exact q1)
            rw [he] at this
            cases this
            rw [q4]
            exact hl0'
          · left; rw [q4]; exact hD y q1)
      refine ask_wp (q := .call (.removeComponent e t)) (r := .unit) (y := ()) (g := Client.answerUnit) (f := fun _ => k.compile) ?_
        (hsc.sizes t (hL t (hmem t ht))) (h2.noFull hd) hT1 rfl (ih hT2 hd hsp hq)
      show (match a.removeComponent e t with | (r, a) => (Except.map _ r, a)) = _
      rw [h1]; rfl
  | despawn e k ih =>
    rintro sn S a Q ⟨L, D, hdb, hL, hS, hD, hg⟩ hd hsp (⟨he, hd', hq⟩ | ⟨he, hq⟩)
    · obtain ⟨a', h1, h2, h3, h4, h5⟩ := hdb.despawn he
      obtain ⟨hT1, hT2⟩ := sim_same (sn' := { sn with db := sn.db.remove e, dead := e :: sn.dead }) h5 hS h2 hL (by
        intro x hx
        rcases List.mem_cons.1 hx with rfl | hx
        · exact h3
        · exact h4 x (hg x hx)) (fun x hx => hD x (List.mem_filter.1 hx).1)
      exact ask_wp (q := .despawn e) (r := .bool true) (y := true) (g := Client.answerBool) (by simp only [AWorld.ask, h1]; rfl) trivial
        (h2.noFull hd') (T := []) hT1 rfl (ih true hT2 hd' hsp hq)
    · have h1 : a.isAlive e = .ok false := (hg e he).alive
      exact ask_wp (q := .despawn e) (r := .bool false) (y := false) (g := Client.answerBool) (by simp only [AWorld.ask, AWorld.despawn, h1]; rfl) trivial
        (hdb.noFull hd) (T := []) (shaped_of hdb hS hD) rfl (ih false ⟨L, D, hdb, hL, hS, hD, hg⟩ hd hsp hq)
  | isAlive e k ih =>
    rintro sn S a Q ⟨L, D, hdb, hL, hS, hD, hg⟩ hd hsp (⟨he, hq⟩ | ⟨he, hq⟩)
    · have h1 : a.isAlive e = .ok true := hdb.tidy.alive (hdb.ent e he).1
      exact ask_wp (q := .isAlive e) (r := .bool true) (y := true) (g := Client.answerBool) (by simp only [AWorld.ask, h1]; rfl) trivial
        (hdb.noFull hd) (T := []) (shaped_of hdb hS hD) rfl (ih true ⟨L, D, hdb, hL, hS, hD, hg⟩ hd hsp hq)
    · have h1 : a.isAlive e = .ok false := (hg e he).alive
      exact ask_wp (q := .isAlive e) (r := .bool false) (y := false) (g := Client.answerBool) (by simp only [AWorld.ask, h1]; rfl) trivial
        (hdb.noFull hd) (T := []) (shaped_of hdb hS hD) rfl (ih false ⟨L, D, hdb, hL, hS, hD, hg⟩ hd hsp hq)
  | has e t k ih =>
    rintro sn S a Q ⟨L, D, hdb, hL, hS, hD, hg⟩ hd hsp (⟨r, he, hq⟩ | ⟨he, hq⟩)
    · have h1 := hdb.has he t
      exact ask_wp (q := .has t e) (r := .bool (r.lookup t).isSome) (y := (r.lookup t).isSome) (g := Client.answerBool) (by simp only [AWorld.ask, h1]; rfl) trivial
        (hdb.noFull hd) (T := []) (shaped_of hdb hS hD) rfl (ih _ ⟨L, D, hdb, hL, hS, hD, hg⟩ hd hsp hq)
    · have h1 : a.hasComponent t e = .ok false := by
        have h0 : a.isAlive e = .ok false := (hg e he).alive
        have hval := hdb.val e t
        rw [lookup_none.2 (hdb.gone (hg e he))] at hval
        unfold AWorld.hasComponent
        cases hc : a.types t with
        | none => rfl
        | some c =>
          rw [hc] at hval
          replace hval : a.cell e c = none := hval
          simp only [h0, hval]
          rfl
      exact ask_wp (q := .has t e) (r := .bool false) (y := false) (g := Client.answerBool) (by simp only [AWorld.ask, h1]; rfl) trivial
        (hdb.noFull hd) (T := []) (shaped_of hdb hS hD) rfl (ih false ⟨L, D, hdb, hL, hS, hD, hg⟩ hd hsp hq)
  | forEach ps f k ih =>
    rintro sn S a Q ⟨L, D, hdb, hL, hS, hD, hg⟩ hd hsp ⟨hc, hp, hf, hq⟩
    refine (client_bind _ _).2 ?_
    unfold Client.forEach Prog.wp
    rw [hdb.query hc]
    refine ⟨?_, asks_ne hp, each_typed hf, ?_⟩
    · have h1 : D.length ≤ sc.shapes.length := hS.nodup.length_le_of_subset hS.mem
      have h2 := hS.len
      have h3 := hsc.shapes
      omega
    · intro es hn he
      obtain ⟨h1, h2, h3, h4⟩ := hdb.loop hp f hn he
      refine ih _ (sim_same (sn' := { sn with db := sn.db.run ps f }) h4 hS h1 hL (by rw [h3]; exact hg) ?_).2 hd hsp (hq _ h2)
      intro x hx
      obtain ⟨y, hy, rfl⟩ := List.mem_map.1 hx
      rw [see_keys]; exact hD y hy
  | lookEach ps f es k ih =>
    rintro sn S a Q ⟨L, D, hdb, hL, hS, hD, hg⟩ hd hsp ⟨hc, hp, hf, he, hq⟩
    refine (client_bind _ _).2 ?_
    unfold Client.lookEach Prog.wp
    rw [hdb.query hc]
    refine ⟨get_typed hf, ?_⟩
    obtain ⟨a', h1, h2, h3, h4⟩ := DbAt.visit hp f es [] hdb (fun e hm => (he e hm).imp id (hg e))
    have := ih _ (sim_same (sn' := { sn with db := sn.db.visit ps f es }) h4 hS h2 hL (by rw [h3]; exact hg) (by
      intro x hx
      obtain ⟨y, q1, q2⟩ := visit_shapes es hx
      rw [← q2]; exact hD y q1)).2 hd hsp hq
    rw [List.append_nil] at h1
    erw [h1]
    show Prog.wp sc.size S (k (sn.db.got ps f es).reverse.reverse).compile a' _
    rw [List.reverse_reverse]
    exact this

end Ellecs
