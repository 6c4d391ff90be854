import Verif.Proofs.Tidy
import Verif.Spec.Database
/-!
# The rules for databases
-/
namespace Ellecs
open World

/-! ### lists of pairs -/

theorem lookup_none {α β : Type} [DecidableEq α] {l : List (α × β)} {x : α} : l.lookup x = none ↔ x ∉ l.map Prod.fst := by
  induction l with
  | nil => simp
  | cons p l ih =>
    obtain ⟨k, v⟩ := p
    rw [List.lookup_cons]
    by_cases h : x = k
    · subst h; simp
    · have hb : (x == k) = false := by simpa using h
      rw [hb]
      simp only [List.map_cons, List.mem_cons, h, false_or]
      exact ih

theorem lookup_some {α β : Type} [DecidableEq α] {l : List (α × β)} (hn : (l.map Prod.fst).Nodup) {x : α} {v : β} : l.lookup x = some v ↔ (x, v) ∈ l := by
  induction l with
  | nil => simp
  | cons p l ih =>
    obtain ⟨k, w⟩ := p
    simp only [List.map_cons, List.nodup_cons] at hn
    rw [List.lookup_cons]
    by_cases h : x = k
    · subst h
      have hb : (x == x) = true := by simp
      rw [hb]
      simp only [List.mem_cons, Prod.mk.injEq, true_and, Option.some.injEq]
      constructor
      · exact fun g => .inl g.symm
      · rintro (g | g)
        · exact g.symm
        · exact absurd (List.mem_map_of_mem (f := Prod.fst) g) hn.1
    · have hb : (x == k) = false := by simpa using h
      rw [hb]
      simp only [List.mem_cons, Prod.mk.injEq, h, false_and, false_or]
      exact ih hn.2

theorem lookup_isSome {α β : Type} [DecidableEq α] {l : List (α × β)} {x : α} (h : x ∈ l.map Prod.fst) : ∃ v, l.lookup x = some v := by
  cases hl : l.lookup x with
  | some v => exact ⟨v, rfl⟩
  | none => exact absurd h (lookup_none.1 hl)

theorem lookup_append' {α β : Type} [DecidableEq α] (l l' : List (α × β)) (x : α) : (l ++ l').lookup x = (l.lookup x).or (l'.lookup x) := by
  induction l with
  | nil => simp
  | cons p l ih =>
    obtain ⟨k, w⟩ := p
    rw [List.cons_append, List.lookup_cons, List.lookup_cons]
    cases x == k <;> simp [ih]

theorem lookup_map {α β γ : Type} [DecidableEq α] (g : α → β → γ) (l : List (α × β)) (x : α) : (l.map fun p => (p.1, g p.1 p.2)).lookup x = (l.lookup x).map (g x) := by
  induction l with
  | nil => rfl
  | cons p l ih =>
    obtain ⟨k, w⟩ := p
    rw [List.map_cons, List.lookup_cons, List.lookup_cons]
    by_cases h : x = k
    · subst h; simp
    · have hb : (x == k) = false := by simpa using h
      rw [hb]; exact ih

theorem lookup_filter {α β : Type} [DecidableEq α] (l : List (α × β)) (x y : α) : (l.filter fun p => p.1 ≠ x).lookup y = if y = x then none else l.lookup y := by
  induction l with
  | nil => simp
  | cons p l ih =>
    obtain ⟨k, w⟩ := p
    rw [List.filter_cons]
    by_cases h : k = x
    · rw [if_neg (by simp [h]), ih, List.lookup_cons]
      by_cases hy : y = x
      · rw [if_pos hy, if_pos hy]
      · rw [if_neg hy, if_neg hy]
        have hb : (y == k) = false := by simp [h]; exact hy
        rw [hb]
    · rw [if_pos (by simp [h]), List.lookup_cons, List.lookup_cons, ih]
      by_cases hy : y = x
      · have hb : (y == k) = false := by simp [hy]; exact fun hc => h hc.symm
        rw [hb, if_pos hy]
      · rw [if_neg hy, if_neg hy]

theorem Fields.put_keys (r : Fields) (t : Ty) (v : Bytes) : (r.put t v).map Prod.fst = r.map Prod.fst := by
  unfold Fields.put
  rw [List.map_map]
  apply List.map_congr_left
  intro x _
  show (if x.1 = t then (t, v) else x).1 = x.1
  split
  · rename_i h; exact h.symm
  · rfl

theorem Fields.put_lookup (r : Fields) (t : Ty) (v : Bytes) (t' : Ty) :
    (r.put t v).lookup t' = if t' = t then (r.lookup t).map (fun _ => v) else r.lookup t' := by
  have : r.put t v = r.map fun p => (p.1, if p.1 = t then v else p.2) := by
    unfold Fields.put
    apply List.map_congr_left
    intro x _
    by_cases h : x.1 = t
    · rw [if_pos h, if_pos h, h]
    · rw [if_neg h, if_neg h]
  rw [this, lookup_map (fun k b => if k = t then v else b)]
  by_cases h : t' = t
  · subst h; simp
  · simp only [if_neg h]; cases r.lookup t' <;> rfl

theorem Fields.drop_lookup (r : Fields) (t t' : Ty) : (r.drop t).lookup t' = if t' = t then none else r.lookup t' := lookup_filter r t t'

theorem Db.update_keys (db : Db) (e : EcsId) (f : Fields → Fields) : (db.update e f).map Prod.fst = db.map Prod.fst := by
  unfold Db.update
  rw [List.map_map]
  apply List.map_congr_left
  intro x _
  show (if x.1 = e then (e, f x.2) else x).1 = x.1
  split
  · rename_i h; exact h.symm
  · rfl

theorem Db.update_lookup (db : Db) (e : EcsId) (f : Fields → Fields) (x : EcsId) :
    (db.update e f).lookup x = if x = e then (db.lookup e).map f else db.lookup x := by
  have : db.update e f = db.map fun p => (p.1, if p.1 = e then f p.2 else p.2) := by
    unfold Db.update
    apply List.map_congr_left
    intro y _
    by_cases h : y.1 = e
    · rw [if_pos h, if_pos h, h]
    · rw [if_neg h, if_neg h]
  rw [this, lookup_map (fun k b => if k = e then f b else b)]
  by_cases h : x = e
  · subst h; simp
  · simp only [if_neg h]; cases db.lookup x <;> rfl

theorem Db.run_lookup (db : Db) (ps : List Param) (f : List AWorld.Seen → List (Option Bytes)) (x : EcsId) :
    (db.run ps f).lookup x = (db.lookup x).map (Fields.run ps f x) := lookup_map (fun k b => Fields.run ps f k b) db x

theorem Db.run_keys (db : Db) (ps : List Param) (f : List AWorld.Seen → List (Option Bytes)) : (db.run ps f).map Prod.fst = db.map Prod.fst := by
  unfold Db.run
  rw [List.map_map]
  rfl

theorem Db.remove_lookup (db : Db) (e x : EcsId) : (db.remove e).lookup x = if x = e then none else db.lookup x := lookup_filter db e x

theorem Db.remove_keys (db : Db) (e : EcsId) : ∀ x, x ∈ (db.remove e).map Prod.fst ↔ x ≠ e ∧ x ∈ db.map Prod.fst := by
  intro x
  have h1 := @lookup_none EcsId Fields _ (db.remove e) x
  have h2 := @lookup_none EcsId Fields _ db x
  rw [Db.remove_lookup] at h1
  by_cases hx : x = e
  · rw [if_pos hx] at h1
    have := h1.1 rfl
    constructor
    · exact fun g => absurd g this
    · exact fun g => absurd hx g.1
  · rw [if_neg hx] at h1
    constructor
    · intro g
      refine ⟨hx, ?_⟩
      apply Classical.byContradiction
      intro hc
      exact (h1.1 (h2.2 hc)) g
    · rintro ⟨_, g⟩
      apply Classical.byContradiction
      intro hc
      exact (h2.1 (h1.2 hc)) g

/-- The world of `a` is the database `db`. -/
structure DbAt L (k d : Nat) (db : Db) (a : AWorld) : Prop where
  tidy : Tidy none L k d a
  keys : (db.map Prod.fst).Nodup
  val : ∀ e t, (a.types t).bind (a.cell e) = (db.lookup e).bind (·.lookup t)
  ent : ∀ e, e ∈ db.map Prod.fst → a.info e ≠ none ∧ a.used e = false ∧ ∀ t, a.types t ≠ some e
  ready : ∀ t c, a.types t = some c → a.used c = true
  typed : ∀ c, a.used c = true → ∃ t, a.types t = some c
  all : ∀ e, a.info e ≠ none → e ∈ db.map Prod.fst ∨ ∃ t, a.types t = some e

theorem DbAt.new : DbAt [] 0 0 [] AWorld.new :=
  ⟨Tidy.new, List.nodup_nil, fun _ _ => rfl, (fun e h => by cases h), (fun t c h => by cases h), (fun c h => by cases h), (fun e h => absurd rfl h)⟩

theorem DbAt.mono {L : List Ty} {k k' d d' : Nat} {db : Db} {a : AWorld} (h : DbAt L k d db a) (hk : k ≤ k') (hd : d ≤ d') : DbAt L k' d' db a :=
  ⟨h.tidy.mono hk hd, h.keys, h.val, h.ent, h.ready, h.typed, h.all⟩

/-! ### spawn -/

theorem given_lookup {a : AWorld} (hinj : ∀ t t' c, a.types t = some c → a.types t' = some c → t = t') {r : Fields} {vs : List (EcsId × Bytes)}
    (h : Pairs (Given a) (r.map fun x => BAct.with x.1 x.2) vs) (t : Ty) : (a.types t).bind (fun c => vs.lookup c) = r.lookup t := by
  induction r generalizing vs with
  | nil =>
    cases h
    cases a.types t <;> rfl
  | cons x r ih =>
    obtain ⟨t0, v0⟩ := x
    cases h with
    | @cons _ cv _ vs hx hr =>
      obtain ⟨c0, w0⟩ := cv
      have h1 : a.types t0 = some c0 := hx.1
      have h2 : w0 = v0 := hx.2
      subst h2
      by_cases ht : t = t0
      · subst ht
        rw [h1]
        simp [List.lookup_cons]
      · have hb : (t == t0) = false := by simpa using ht
        rw [List.lookup_cons, hb, ← ih hr]
        cases hc : a.types t with
        | none => rfl
        | some c =>
          have : c ≠ c0 := by rintro rfl; exact ht (hinj t t0 c hc h1)
          have hb' : (c == c0) = false := by simpa using this
          show ((c0, w0) :: vs).lookup c = vs.lookup c
          rw [List.lookup_cons, hb']

theorem given_typed {a : AWorld} {r : Fields} {vs : List (EcsId × Bytes)} (h : Pairs (Given a) (r.map fun x => BAct.with x.1 x.2) vs) :
    ∀ c ∈ vs.map Prod.fst, ∃ t ∈ r.map Prod.fst, a.types t = some c := by
  induction r generalizing vs with
  | nil => cases h; intro c hc; cases hc
  | cons x r ih =>
    cases h with
    | @cons _ cv _ vs hx hr =>
      intro c hc
      rcases List.mem_cons.1 hc with rfl | hc
      · exact ⟨x.1, List.mem_cons_self, hx.1⟩
      · obtain ⟨t, h1, h2⟩ := ih hr c hc
        exact ⟨t, List.mem_cons_of_mem _ h1, h2⟩

theorem given_nodup {a : AWorld} (hinj : ∀ t t' c, a.types t = some c → a.types t' = some c → t = t') {r : Fields} (hr : (r.map Prod.fst).Nodup)
    {vs : List (EcsId × Bytes)} (h : Pairs (Given a) (r.map fun x => BAct.with x.1 x.2) vs) : (vs.map Prod.fst).Nodup := by
  induction r generalizing vs with
  | nil => cases h; exact List.nodup_nil
  | cons x r ih =>
    cases h with
    | @cons _ cv _ vs hx hp =>
      simp only [List.map_cons, List.nodup_cons] at hr ⊢
      refine ⟨?_, ih hr.2 hp⟩
      intro hc
      obtain ⟨t, h1, h2⟩ := given_typed hp _ hc
      exact hr.1 (by rw [hinj x.1 t cv.1 hx.1 h2]; exact h1)

theorem spawn_bytes {s : Nat} (hs : s < 2 ^ 29) {r : Fields} (hr : r.Ok s) (hlen : r.length < 2 ^ 32) :
    2 * ((r.map (fun (x : Ty × Bytes) => BAct.with x.1 x.2) ++ [BAct.build]).map actBytes).sum < isizeMax := by
  have h1 : ∀ r : Fields, (∀ x ∈ r, x.2.length ≤ s) → ((r.map (fun (x : Ty × Bytes) => BAct.with x.1 x.2) ++ [BAct.build]).map actBytes).sum ≤ r.length * s := by
    intro r hr
    induction r with
    | nil => simp [actBytes]
    | cons x r ih =>
      have hx := hr x List.mem_cons_self
      have := ih (fun y hy => hr y (List.mem_cons_of_mem _ hy))
      simp only [List.map_cons, List.cons_append, List.sum_cons, List.length_cons, Nat.succ_mul]
      show x.2.length + _ ≤ _
      omega
  have h2 := h1 r (fun x hx => by rw [hr.size x hx]; exact hr.small x hx)
  have h3 : r.length * s ≤ 2 ^ 32 * 2 ^ 29 := Nat.mul_le_mul (Nat.le_of_lt hlen) (Nat.le_of_lt hs)
  have h4 : 2 * (2 ^ 32 * 2 ^ 29) < isizeMax := by decide
  omega

theorem learnActs_fields (r : Fields) : ∀ L : List Ty, (r.map fun x => BAct.with x.1 x.2).foldl learnAct L = (r.map Prod.fst).foldl learn L := by
  induction r with
  | nil => exact fun _ => rfl
  | cons x r ih => exact fun L => ih (learn L x.1)

theorem DbAt.spawn {L : List Ty} {k d : Nat} {db : Db} {a : AWorld} (h : DbAt L k d db a) {s : Nat} (hs : s < 2 ^ 29) (hd : d < 2 ^ 32) {r : Fields} (hr : r.Ok s)
    (hlen : r.length < 2 ^ 32) (hk : k + 1 + ((r.map Prod.fst).foldl learn L).length ≤ 2 ^ 32) : ∃ e a', a.spawn .plain (r.map (fun x => .with x.1 x.2) ++ [.build]) = (.ok e, a') ∧
      a.ChainOk s .plain (r.map (fun x => .with x.1 x.2) ++ [.build]) ∧ db.lookup e = none ∧ DbAt ((r.map Prod.fst).foldl learn L) (k + 1) d (db ++ [(e, r)]) a' ∧
      (∀ x, Gone a.ents x → Gone a'.ents x) ∧ a.isAlive e ≠ .ok true ∧ a'.isAlive e = .ok true ∧
      (∀ t c, a.types t = some c → a'.types t = some c) := by
  have hT := h.tidy
  obtain ⟨e, vs, a', h1, h2, h3, h4, h5, h6⟩ := hT.spawn hd .plain (xs := r.map fun x => .with x.1 x.2) (by rw [learnActs_fields]; exact hk)
    (by
      intro x hx
      obtain ⟨y, hy, rfl⟩ := List.mem_map.1 hx
      exact hr.size y hy)
    (fun a' vs hinj hp => given_nodup hinj hr.nodup hp)
  rw [learnActs_fields] at h3
  have hnone : db.lookup e = none := lookup_none.2 (fun hc => (h.ent e hc).1 h4.unbuilt)
  have hmono : ∀ x, a.info x ≠ none → a'.info x ≠ none := by
    intro x hx
    cases hi : a.info x with
    | none => exact absurd hi hx
    | some m => rw [h4.info x m hi]; simp
  have hnocell : ∀ x c, a.info c = none → a.cell x c = none := by
    intro x c hc
    cases hi : a.cell x c with
    | none => rfl
    | some bs => exact absurd hc (hT.used c (hT.cells x c (by rw [hi]; simp)).2).1
  refine ⟨e, a', h1, ⟨h2, spawn_bytes hs hr hlen, (fun m hm => by cases hm), (fun n hn => by cases hn), ?_⟩, hnone, ?_, h4.gone, h4.fresh, h3.alive (by rw [h6]; simp), h4.types⟩
  · intro t v hm
    rcases List.mem_append.1 hm with hm | hm
    · obtain ⟨y, hy, hh⟩ := List.mem_map.1 hm
      cases hh
      exact hr.small y hy
    · cases List.mem_singleton.1 hm
  · refine ⟨h3, ?_, ?_, ?_, ?_, ?_, ?_⟩
    · rw [List.map_append, List.nodup_append]
      refine ⟨h.keys, by simp, ?_⟩
      intro x hx y hy
      have : y = e := by simpa using hy
      rintro rfl
      exact lookup_none.1 hnone (this ▸ hx)
    · intro x t
      rw [lookup_append']
      by_cases hx : x = e
      · subst hx
        have hc : a'.cell x = fun c => vs.lookup c := by funext c; rw [h4.cell, if_pos rfl]
        rw [hnone, hc, given_lookup h3.inj h5]
        simp [List.lookup_cons]
      · have hc : a'.cell x = a.cell x := by funext c; rw [h4.cell, if_neg hx]
        have hl : ([(e, r)] : Db).lookup x = none := by
          rw [List.lookup_cons]
          have hb : (x == e) = false := by simpa using hx
          rw [hb]; rfl
        rw [hl, Option.or_none, ← h.val x t, hc]
        cases ht : a.types t with
        | some c => rw [h4.types t c ht]
        | none =>
          cases ht' : a'.types t with
          | none => rfl
          | some c =>
            rcases h4.newType t c ht' with g | ⟨g, _⟩
            · rw [ht] at g; cases g
            · exact hnocell x c g
    · intro x hx
      have hcomp : ∀ t, a'.types t = some x → False := by
        intro t ht
        rw [List.map_append, List.mem_append] at hx
        rcases h4.newType t x ht with g | ⟨g1, g2, _⟩
        · rcases hx with hx | hx
          · exact (h.ent x hx).2.2 t g
          · have : x = e := by simpa using hx
            rw [this] at g
            have := hT.types t e g
            rw [h4.unbuilt] at this; cases this
        · rcases hx with hx | hx
          · exact (h.ent x hx).1 g1
          · exact g2 (by simpa using hx)
      refine ⟨?_, ?_, fun t ht => hcomp t ht⟩
      · rw [List.map_append, List.mem_append] at hx
        rcases hx with hx | hx
        · exact hmono x (h.ent x hx).1
        · have : x = e := by simpa using hx
          rw [this, h6]; simp
      · rw [h4.used]
        cases hu : a.used x with
        | true =>
          rw [List.map_append, List.mem_append] at hx
          rcases hx with hx | hx
          · rw [(h.ent x hx).2.1] at hu; cases hu
          · have : x = e := by simpa using hx
            rw [this] at hu
            exact absurd h4.unbuilt (hT.used e hu).1
        | false =>
          rw [Bool.false_or]
          cases hm : (vs.map Prod.fst).contains x with
          | false => rfl
          | true =>
            obtain ⟨t, _, ht⟩ := given_typed h5 x (List.contains_iff_mem.1 hm)
            exact (hcomp t ht).elim
    · intro t c ht
      rw [h4.used]
      rcases h4.newType t c ht with g | ⟨_, _, g⟩
      · rw [h.ready t c g]; rfl
      · rw [List.contains_iff_mem.2 g, Bool.or_true]
    · intro c hc
      rw [h4.used] at hc
      rcases Bool.or_eq_true_iff.1 hc with hc | hc
      · obtain ⟨t, ht⟩ := h.typed c hc
        exact ⟨t, h4.types t c ht⟩
      · obtain ⟨t, _, ht⟩ := given_typed h5 c (List.contains_iff_mem.1 hc)
        exact ⟨t, ht⟩
    · intro x hx
      rw [List.map_append, List.mem_append]
      rcases h4.built x hx with hx | rfl | hx
      · rcases h.all x hx with hx | ⟨t, ht⟩
        · exact .inl (.inl hx)
        · exact .inr ⟨t, h4.types t x ht⟩
      · exact .inl (.inr (by simp))
      · exact .inr hx

/-! ### add, remove, despawn, has -/

theorem DbAt.info {L : List Ty} {k d : Nat} {db : Db} {a : AWorld} (h : DbAt L k d db a) {e : EcsId} {r : Fields} (he : db.lookup e = some r) : e ∈ db.map Prod.fst := by
  apply Classical.byContradiction
  intro hc
  rw [lookup_none.2 hc] at he; cases he

theorem DbAt.add {L : List Ty} {k d : Nat} {db : Db} {a : AWorld} (h : DbAt L k d db a) (hd : d < 2 ^ 32) {e : EcsId} {t : Ty} {v : Bytes} {r : Fields} (hk : k + (learn L t).length ≤ 2 ^ 32)
    (he : db.lookup e = some r) (ht : r.lookup t = none) (hv : v.length = t.size) :
    ∃ a', a.addComponent e t v = (.ok (), a') ∧ DbAt (learn L t) k d (db.update e (fun r => r ++ [(t, v)])) a' ∧ (∀ x, Gone a.ents x → Gone a'.ents x) ∧
      (∀ t c, a.types t = some c → a'.types t = some c) := by
  have hT := h.tidy
  have hmem := h.info he
  obtain ⟨hinfo, hun, hty⟩ := h.ent e hmem
  have hval := h.val e t
  rw [he] at hval
  replace hval : (a.types t).bind (a.cell e) = none := by rw [hval]; exact ht
  obtain ⟨c, a', h1, h2, h3, h4⟩ := hT.addComponent hk hd (e := e) (t := t) (v := v) hinfo (fun c hc => by rw [hc] at hval; exact hval) hv
  have hmono : ∀ x, a.info x ≠ none → a'.info x ≠ none := by
    intro x hx
    cases hi : a.info x with
    | none => exact absurd hi hx
    | some m => rw [h3.info x m hi]; simp
  have hnocell : ∀ x c, a.info c = none → a.cell x c = none := by
    intro x c hc
    cases hi : a.cell x c with
    | none => rfl
    | some bs => exact absurd hc (hT.used c (hT.cells x c (by rw [hi]; simp)).2).1
  refine ⟨a', h1, ⟨h2, ?_, ?_, ?_, ?_, ?_, ?_⟩, h3.gone, h3.types⟩
  · rw [Db.update_keys]; exact h.keys
  · intro x t'
    rw [Db.update_lookup]
    have hold : ∀ x, (a'.types t').bind (a.cell x) = (a.types t').bind (a.cell x) := by
      intro x
      cases hc : a.types t' with
      | some c' => rw [h3.types t' c' hc]
      | none =>
        cases hc' : a'.types t' with
        | none => rfl
        | some c' =>
          rcases h3.newType t' c' hc' with g | ⟨g, _⟩
          · rw [hc] at g; cases g
          · exact hnocell x c' g
    by_cases hx : x = e
    · subst hx
      rw [if_pos rfl, he]
      show _ = (r ++ [(t, v)]).lookup t'
      rw [lookup_append']
      by_cases htt : t' = t
      · subst htt
        rw [h4, ht]
        show a'.cell x c = _
        rw [h3.cell, if_pos ⟨rfl, rfl⟩]
        simp [List.lookup_cons]
      · have hb : (t' == t) = false := by simpa using htt
        have hl : ([(t, v)] : Fields).lookup t' = none := by rw [List.lookup_cons, hb]; rfl
        rw [hl, Option.or_none]
        have := h.val x t'
        rw [he] at this
        show _ = (some r).bind (·.lookup t')
        rw [← this, ← hold x]
        cases hc : a'.types t' with
        | none => rfl
        | some c' =>
          show a'.cell x c' = a.cell x c'
          rw [h3.cell, if_neg]
          rintro ⟨_, rfl⟩
          exact htt (h2.inj t' t c' hc h4)
    · rw [if_neg hx, ← h.val x t', ← hold x]
      congr 1
      funext c'
      rw [h3.cell, if_neg (fun hc => hx hc.1)]
  · intro x hx
    rw [Db.update_keys] at hx
    obtain ⟨g1, g2, g3⟩ := h.ent x hx
    have hcomp : ∀ t', a'.types t' ≠ some x := by
      intro t' hc
      rcases h3.newType t' x hc with g | ⟨g, _⟩
      · exact g3 t' g
      · exact g1 g
    refine ⟨hmono x g1, ?_, hcomp⟩
    rw [h3.used, g2, Bool.false_or]
    have : x ≠ c := by rintro rfl; exact hcomp t h4
    simpa using this
  · intro t' c' hc
    rw [h3.used]
    rcases h3.newType t' c' hc with g | ⟨_, rfl⟩
    · rw [h.ready t' c' g]; rfl
    · simp
  · intro y hy
    rw [h3.used] at hy
    rcases Bool.or_eq_true_iff.1 hy with hy | hy
    · obtain ⟨t', ht'⟩ := h.typed y hy
      exact ⟨t', h3.types t' y ht'⟩
    · have : y = c := by simpa using hy
      exact ⟨t, by rw [this]; exact h4⟩
  · intro x hx
    rw [Db.update_keys]
    rcases h3.built x hx with hx | hx
    · rcases h.all x hx with hx | ⟨t', ht'⟩
      · exact .inl hx
      · exact .inr ⟨t', h3.types t' x ht'⟩
    · exact .inr hx

theorem DbAt.cell {L : List Ty} {k d : Nat} {db : Db} {a : AWorld} (h : DbAt L k d db a) {e : EcsId} {t : Ty} {v : Bytes} {r : Fields} (he : db.lookup e = some r)
    (ht : r.lookup t = some v) : ∃ c, a.types t = some c ∧ a.cell e c = some v := by
  have hval := h.val e t
  rw [he] at hval
  replace hval : (a.types t).bind (a.cell e) = some v := by rw [hval]; exact ht
  cases hc : a.types t with
  | none => rw [hc] at hval; cases hval
  | some c => rw [hc] at hval; exact ⟨c, rfl, hval⟩

theorem DbAt.remove {L : List Ty} {k d : Nat} {db : Db} {a : AWorld} (h : DbAt L k d db a) {e : EcsId} {t : Ty} {v : Bytes} {r : Fields} (he : db.lookup e = some r)
    (ht : r.lookup t = some v) : ∃ a', a.removeComponent e t = (.ok (), a') ∧ DbAt L k d (db.update e (fun r => r.drop t)) a' ∧ a'.ents = a.ents ∧ a'.types = a.types := by
  have hT := h.tidy
  obtain ⟨c, hc, hcell⟩ := h.cell he ht
  obtain ⟨h1, h2⟩ := hT.removeComponent hc (e := e) (by rw [hcell]; simp)
  refine ⟨_, h1, ⟨h2, ?_, ?_, ?_, h.ready, h.typed, (by rw [Db.update_keys]; exact h.all)⟩, rfl, rfl⟩
  · rw [Db.update_keys]; exact h.keys
  · intro x t'
    show (a.types t').bind (fun y => if x = e ∧ y = c then none else a.cell x y) = _
    rw [Db.update_lookup]
    by_cases hx : x = e
    · subst hx
      rw [if_pos rfl, he]
      show _ = (r.drop t).lookup t'
      rw [Fields.drop_lookup]
      by_cases htt : t' = t
      · subst htt
        rw [hc, if_pos rfl]
        show (if x = x ∧ c = c then none else a.cell x c) = none
        rw [if_pos ⟨rfl, rfl⟩]
      · rw [if_neg htt]
        have := h.val x t'
        rw [he] at this
        show _ = (some r).bind (·.lookup t')
        rw [← this]
        cases hc' : a.types t' with
        | none => rfl
        | some c' =>
          show (if x = x ∧ c' = c then none else a.cell x c') = a.cell x c'
          rw [if_neg]
          rintro ⟨_, rfl⟩
          exact htt (hT.inj t' t c' hc' hc)
    · rw [if_neg hx, ← h.val x t']
      congr 1
      funext c'
      rw [if_neg (fun hc => hx hc.1)]
  · intro x hx
    rw [Db.update_keys] at hx
    exact h.ent x hx

theorem DbAt.despawn {L : List Ty} {k d : Nat} {db : Db} {a : AWorld} (h : DbAt L k d db a) {e : EcsId} (he : e ∈ db.map Prod.fst) :
    ∃ a', a.despawn e = (.ok true, a') ∧ DbAt L k (d + 1) (db.remove e) a' ∧ Gone a'.ents e ∧ (∀ x, Gone a.ents x → Gone a'.ents x) ∧ a'.types = a.types := by
  have hT := h.tidy
  obtain ⟨hinfo, hun, hty⟩ := h.ent e he
  obtain ⟨a', h1, h2, h3, h4, h5, h6, h7, h8⟩ := hT.despawn hinfo hun hty
  refine ⟨a', h1, ⟨h2, ?_, ?_, ?_, ?_, (by rw [h4, h5]; exact h.typed), ?_⟩, h7, h8, h4⟩
  · unfold Db.remove
    exact h.keys.sublist (List.filter_sublist.map Prod.fst)
  · intro x t
    rw [Db.remove_lookup, h4]
    by_cases hx : x = e
    · rw [if_pos hx]
      have : a'.cell x = fun _ => none := by funext y; rw [h3, if_pos hx]
      rw [this]
      cases a.types t <;> rfl
    · rw [if_neg hx, ← h.val x t]
      congr 1
      funext y
      rw [h3, if_neg hx]
  · intro x hx
    rw [Db.remove_keys] at hx
    obtain ⟨g1, g2, g3⟩ := h.ent x hx.2
    rw [h6, if_neg hx.1, h5, h4]
    exact ⟨g1, g2, g3⟩
  · intro t c g
    rw [h4] at g
    rw [h5]; exact h.ready t c g
  · intro x hx
    rw [h6] at hx
    rw [Db.remove_keys, h4]
    by_cases hxe : x = e
    · rw [if_pos hxe] at hx; exact absurd rfl hx
    · rw [if_neg hxe] at hx
      rcases h.all x hx with g | g
      · exact .inl ⟨hxe, g⟩
      · exact .inr g

theorem DbAt.has {L : List Ty} {k d : Nat} {db : Db} {a : AWorld} (h : DbAt L k d db a) {e : EcsId} {r : Fields} (he : db.lookup e = some r) (t : Ty) :
    a.hasComponent t e = .ok (r.lookup t).isSome := by
  have hT := h.tidy
  have hval := h.val e t
  rw [he] at hval
  replace hval : (a.types t).bind (a.cell e) = r.lookup t := hval
  unfold AWorld.hasComponent
  rw [← hval]
  cases a.types t with
  | none => rfl
  | some c =>
    simp only
    rw [hT.alive (h.ent e (h.info he)).1]
    rfl

/-! ### queries -/

theorem take_ok (a : AWorld) (static : Bool) (fs : List Fetch) : ∀ held : List (EcsId × Bool),
    (∀ f ∈ fs, ∀ c wr, AWorld.want f = some (c, wr) → a.lock c = some false) →
    fs.Pairwise (fun f g => ∀ c w1 w2, AWorld.want f = some (c, w1) → AWorld.want g = some (c, w2) → w1 = false ∧ w2 = false) →
    (∀ c wr, (c, wr) ∈ held → ∀ f ∈ fs, ∀ w2, AWorld.want f = some (c, w2) → wr = false ∧ w2 = false) →
    (a.take static held fs).1 = none := by
  induction fs with
  | nil => exact fun _ _ _ _ => rfl
  | cons f fs ih =>
    intro held hl hp hh
    rw [List.pairwise_cons] at hp
    have hl' : ∀ g ∈ fs, ∀ c wr, AWorld.want g = some (c, wr) → a.lock c = some false := fun g hg => hl g (List.mem_cons_of_mem _ hg)
    have hh' : ∀ c wr, (c, wr) ∈ held → ∀ g ∈ fs, ∀ w2, AWorld.want g = some (c, w2) → wr = false ∧ w2 = false :=
      fun c wr hm g hg => hh c wr hm g (List.mem_cons_of_mem _ hg)
    unfold AWorld.take
    cases hw : AWorld.want f with
    | none => exact ih held hl' hp.2 hh'
    | some cw =>
      obtain ⟨c, wr⟩ := cw
      simp only [hl f List.mem_cons_self c wr hw]
      rw [if_neg, if_neg (by simp)]
      · apply ih _ hl' hp.2
        intro c' wr' hm g hg w2 hw2
        rcases List.mem_append.1 hm with hm | hm
        · exact hh' c' wr' hm g hg w2 hw2
        · cases List.mem_singleton.1 hm
          exact hp.1 g hg c wr w2 hw hw2
      · rintro (g | ⟨g1, g2⟩)
        · have := (hh c true g f List.mem_cons_self wr hw).1; cases this
        · have := (hh c false g2 f List.mem_cons_self wr hw).2
          rw [g1] at this; cases this

theorem mapM_pairs {α β : Type} {f : α → Option β} {l : List α} {l' : List β} (h : l.mapM f = some l') : Pairs (fun x y => f x = some y) l l' := by
  induction l generalizing l' with
  | nil =>
    simp at h
    subst h
    exact .nil
  | cons x l ih =>
    rw [List.mapM_cons] at h
    cases hx : f x with
    | none => rw [hx] at h; cases h
    | some y =>
      rw [hx] at h
      cases hl : l.mapM f with
      | none => rw [hl] at h; cases h
      | some ys =>
        rw [hl] at h
        cases h
        exact .cons hx (ih hl)

theorem mapM_none {α β : Type} {f : α → Option β} {l : List α} {x : α} (hx : x ∈ l) (hf : f x = none) : l.mapM f = none := by
  cases h : l.mapM f with
  | none => rfl
  | some ys =>
    exfalso
    have hp := mapM_pairs h
    clear h
    induction hp with
    | nil => cases hx
    | cons h1 _ ih =>
      rcases List.mem_cons.1 hx with rfl | hx
      · rw [hf] at h1; cases h1
      · exact ih hx

theorem pairs_right {α β : Type} {R : α → β → Prop} {l : List α} {l' : List β} (h : Pairs R l l') : ∀ y ∈ l', ∃ x ∈ l, R x y := by
  induction h with
  | nil => intro y hy; cases hy
  | @cons x y _ _ h1 _ ih =>
    intro z hz
    rcases List.mem_cons.1 hz with rfl | hz
    · exact ⟨x, List.mem_cons_self, h1⟩
    · obtain ⟨x', g1, g2⟩ := ih z hz
      exact ⟨x', List.mem_cons_of_mem _ g1, g2⟩

theorem pairs_pairwise {α β : Type} {R : α → β → Prop} {S : α → α → Prop} {T : β → β → Prop} (hST : ∀ x x' y y', R x y → R x' y' → S x x' → T y y')
    {l : List α} {l' : List β} (h : Pairs R l l') : l.Pairwise S → l'.Pairwise T := by
  induction h with
  | nil => exact fun _ => .nil
  | @cons x y as bs h1 h2 ih =>
    intro hs
    rw [List.pairwise_cons] at hs ⊢
    refine ⟨?_, ih hs.2⟩
    intro y' hy'
    obtain ⟨x', hx', hr⟩ := pairs_right h2 y' hy'
    exact hST x x' y y' h1 hr (hs.1 x' hx')

theorem DbAt.query {L : List Ty} {k d : Nat} {db : Db} {a : AWorld} (h : DbAt L k d db a) {ps : List Param} (hc : Compatible ps) : a.query ps false = (.ok (), a) := by
  have hT := h.tidy
  unfold AWorld.query
  cases hm : ps.mapM a.fetch with
  | none => rfl
  | some fs =>
    have hp := mapM_pairs hm
    have hwant : ∀ p f, a.fetch p = some f → ∀ c wr, AWorld.want f = some (c, wr) → ∃ t, a.types t = some c ∧ p = if wr then .mut t else .ref t := by
      intro p f hf c wr hw
      cases p with
      | ids => cases hf; cases hw
      | «mut» t =>
        cases ht : a.types t with
        | none => simp [AWorld.fetch, ht] at hf
        | some c' =>
          simp [AWorld.fetch, ht] at hf
          subst hf
          cases hw
          exact ⟨t, ht, rfl⟩
      | ref t =>
        cases ht : a.types t with
        | none => simp [AWorld.fetch, ht] at hf
        | some c' =>
          simp [AWorld.fetch, ht] at hf
          subst hf
          cases hw
          exact ⟨t, ht, rfl⟩
    have h1 : (a.take true [] fs).1 = none := by
      apply take_ok
      · intro f hf c wr hw
        obtain ⟨p, _, hpf⟩ := pairs_right hp f hf
        obtain ⟨t, ht, _⟩ := hwant p f hpf c wr hw
        exact (hT.used c (h.ready t c ht)).2
      · refine pairs_pairwise ?_ hp hc
        intro p p' f f' hf hf' hpp c w1 w2 g1 g2
        obtain ⟨t, ht, hpt⟩ := hwant p f hf c w1 g1
        obtain ⟨t', ht', hpt'⟩ := hwant p' f' hf' c w2 g2
        have := hT.inj t t' c ht ht'
        subst this
        obtain ⟨q1, q2⟩ := hpp t
        cases w1 <;> cases w2
        · exact ⟨rfl, rfl⟩
        · exact absurd hpt' (q2 hpt)
        · exact absurd hpt' (q1 hpt).2
        · exact absurd hpt' (q1 hpt).1
      · intro c wr hm'
        cases hm'
    show a.lockAll true fs false = _
    unfold AWorld.lockAll
    cases htk : a.take true [] fs with
    | mk x held =>
      rw [htk] at h1
      cases h1
      rfl

theorem DbAt.row {L : List Ty} {k d : Nat} {db : Db} {a : AWorld} (h : DbAt L k d db a) {ps : List Param} (hp : AsksType ps) (e : EcsId) :
    a.row ps e = (db.lookup e).bind (Fields.see e · ps) := by
  cases he : db.lookup e with
  | some r =>
    have hi := (h.ent e (h.info he)).1
    unfold AWorld.row
    rw [if_pos (by cases hq : a.info e with | none => exact absurd hq hi | some _ => rfl)]
    show ps.mapM (a.seen e) = Fields.see e r ps
    unfold Fields.see
    congr 1
    funext p
    have hv : ∀ t, (a.types t).bind (a.cell e) = r.lookup t := by intro t; rw [h.val e t, he]; rfl
    cases p with
    | ids => rfl
    | «mut» t => show ((a.types t).bind (a.cell e)).map _ = _; rw [hv]
    | ref t => show ((a.types t).bind (a.cell e)).map _ = _; rw [hv]
  | none =>
    unfold AWorld.row
    split
    · obtain ⟨t, ht⟩ := hp
      have hv : (a.types t).bind (a.cell e) = none := by rw [h.val e t, he]; rfl
      rcases ht with ht | ht
      · exact mapM_none ht (by show ((a.types t).bind (a.cell e)).map _ = none; rw [hv]; rfl)
      · exact mapM_none ht (by show ((a.types t).bind (a.cell e)).map _ = none; rw [hv]; rfl)
    · rfl

theorem Fields.see_some {e : EcsId} {r : Fields} {ps : List Param} {ss : List AWorld.Seen} (h : r.see e ps = some ss) : ∀ t, .mut t ∈ ps → r.lookup t ≠ none := by
  intro t ht hc
  have : r.see e ps = none := by
    unfold Fields.see
    exact mapM_none ht (by show (r.lookup t).map _ = none; rw [hc]; rfl)
  rw [this] at h; cases h

/-! ### stores -/

theorem Fields.store_keys (ps : List Param) : ∀ (r : Fields) (out : List (Option Bytes)), (r.store ps out).map Prod.fst = r.map Prod.fst := by
  induction ps with
  | nil => intro r out; cases out <;> rfl
  | cons p ps ih =>
    intro r out
    cases out with
    | nil => cases p <;> rfl
    | cons o out =>
      cases p with
      | ids => exact ih r out
      | ref t => exact ih r out
      | «mut» t =>
        cases o with
        | none => exact ih r out
        | some v => exact (ih (r.put t v) out).trans (r.put_keys t v)

theorem store_val (e : EcsId) (ps : List Param) : ∀ {a : AWorld} {r : Fields} (out : List (Option Bytes)),
    (∀ t t' c, a.types t = some c → a.types t' = some c → t = t') → (∀ t, (a.types t).bind (a.cell e) = r.lookup t) →
    (∀ t, .mut t ∈ ps → r.lookup t ≠ none) → ∀ t, (a.types t).bind ((a.storeAll e (a.cells ps out)).cell e) = (r.store ps out).lookup t := by
  induction ps with
  | nil =>
    intro a r out _ hv _ t
    cases out <;> exact hv t
  | cons p ps ih =>
    intro a r out hinj hv hp t
    have hp' : ∀ t, .mut t ∈ ps → r.lookup t ≠ none := fun t ht => hp t (List.mem_cons_of_mem _ ht)
    cases out with
    | nil => cases p <;> exact hv t
    | cons o out =>
      cases p with
      | ids => exact ih out hinj hv hp' t
      | ref t' => exact ih out hinj hv hp' t
      | «mut» t0 =>
        cases o with
        | none => exact ih out hinj hv hp' t
        | some v =>
          have h0 := hp t0 List.mem_cons_self
          cases hc : a.types t0 with
          | none => have := hv t0; rw [hc] at this; exact absurd this.symm h0
          | some c =>
            have hcells : a.cells (.mut t0 :: ps) (some v :: out) = (c, v) :: a.cells ps out := by simp only [AWorld.cells, hc]
            rw [hcells]
            show (a.types t).bind ((AWorld.storeAll e (a.cells ps out) { a with cell := fun x y => if x = e ∧ y = c then some v else a.cell x y }).cell e) = ((r.put t0 v).store ps out).lookup t
            rw [WorldSpec.cells_types (a := a) (b := { a with cell := fun x y => if x = e ∧ y = c then some v else a.cell x y }) rfl]
            refine ih (a := { a with cell := fun x y => if x = e ∧ y = c then some v else a.cell x y }) (r := r.put t0 v) out hinj ?_ ?_ t
            · intro t'
              show (a.types t').bind (fun y => if e = e ∧ y = c then some v else a.cell e y) = _
              rw [Fields.put_lookup]
              by_cases ht : t' = t0
              · rw [if_pos ht, ht, hc]
                cases hq : r.lookup t0 with
                | none => exact absurd hq h0
                | some _ => simp
              · rw [if_neg ht, ← hv t']
                cases hc' : a.types t' with
                | none => rfl
                | some c' =>
                  show (if e = e ∧ c' = c then some v else a.cell e c') = a.cell e c'
                  rw [if_neg]
                  rintro ⟨_, rfl⟩
                  exact ht (hinj t' t0 c' hc' hc)
            · intro t' ht'
              have := hp' t' ht'
              rw [Fields.put_lookup]
              split
              · cases hq : r.lookup t0 with
                | none => exact absurd hq h0
                | some _ => simp
              · exact this

theorem storeAll_dom (e : EcsId) (cs : List (EcsId × Bytes)) : ∀ {a : AWorld}, (∀ cb ∈ cs, a.cell e cb.1 ≠ none) → ∀ x y, (a.storeAll e cs).cell x y ≠ none →
    a.cell x y ≠ none := by
  induction cs with
  | nil => exact fun _ _ _ h => h
  | cons cb cs ih =>
    intro a h x y g
    obtain ⟨c, bs⟩ := cb
    have := ih (a := { a with cell := fun x y => if x = e ∧ y = c then some bs else a.cell x y }) ?_ x y g
    · replace this : (if x = e ∧ y = c then some bs else a.cell x y) ≠ none := this
      split at this
      · rename_i hh
        rw [hh.1, hh.2]
        exact h (c, bs) List.mem_cons_self
      · exact this
    · intro cb hcb
      show (if e = e ∧ cb.1 = c then some bs else a.cell e cb.1) ≠ none
      split
      · simp
      · exact h cb (List.mem_cons_of_mem _ hcb)

theorem cells_mem {a : AWorld} (ps : List Param) : ∀ (out : List (Option Bytes)) (cb : EcsId × Bytes), cb ∈ a.cells ps out → ∃ t, .mut t ∈ ps ∧ a.types t = some cb.1 := by
  induction ps with
  | nil => intro out cb h; cases out <;> cases h
  | cons p ps ih =>
    intro out cb h
    have lift : (∃ t, .mut t ∈ ps ∧ a.types t = some cb.1) → ∃ t, .mut t ∈ p :: ps ∧ a.types t = some cb.1 := by
      rintro ⟨t, h1, h2⟩; exact ⟨t, List.mem_cons_of_mem _ h1, h2⟩
    cases out with
    | nil => cases p <;> cases h
    | cons o out =>
      cases p with
      | ids => exact lift (ih out cb h)
      | ref t => exact lift (ih out cb h)
      | «mut» t =>
        cases o with
        | none => exact lift (ih out cb h)
        | some v =>
          cases hc : a.types t with
          | none => simp only [AWorld.cells, hc] at h; exact lift (ih out cb h)
          | some c =>
            simp only [AWorld.cells, hc] at h
            rcases List.mem_cons.1 h with rfl | h
            · exact ⟨t, List.mem_cons_self, hc⟩
            · exact lift (ih out cb h)

/-- Only values change. -/
theorem DbAt.setCell {L : List Ty} {k d : Nat} {db db' : Db} {a : AWorld} (h : DbAt L k d db a) {cell' : EcsId → EcsId → Option Bytes}
    (hc : ∀ x y, cell' x y ≠ none → a.cell x y ≠ none) (hk : db'.map Prod.fst = db.map Prod.fst)
    (hv : ∀ e t, (a.types t).bind (cell' e) = (db'.lookup e).bind (·.lookup t)) : DbAt L k d db' { a with cell := cell' } :=
  ⟨h.tidy.setCell hc, by rw [hk]; exact h.keys, hv, (fun e he => h.ent e (by rw [← hk]; exact he)), h.ready, h.typed, (by rw [hk]; exact h.all)⟩

theorem DbAt.cells_dom {L : List Ty} {k d : Nat} {db : Db} {a : AWorld} (h : DbAt L k d db a) {e : EcsId} {r : Fields} (he : db.lookup e = some r) {ps : List Param}
    (hp : ∀ t, .mut t ∈ ps → r.lookup t ≠ none) (out : List (Option Bytes)) : ∀ cb ∈ a.cells ps out, a.cell e cb.1 ≠ none := by
  intro cb hcb
  obtain ⟨t, h1, h2⟩ := cells_mem ps out cb hcb
  have hv := h.val e t
  rw [he, h2] at hv
  replace hv : a.cell e cb.1 = r.lookup t := hv
  rw [hv]; exact hp t h1

theorem DbAt.stored {L : List Ty} {k d : Nat} {db : Db} {a : AWorld} (h : DbAt L k d db a) {e : EcsId} {r : Fields} (he : db.lookup e = some r) {ps : List Param}
    {ss : List AWorld.Seen} (hs : r.see e ps = some ss) (f : List AWorld.Seen → List (Option Bytes)) :
    DbAt L k d (db.update e (Fields.run ps f e)) (a.storeAll e (a.cells ps (f ss))) := by
  have hp := Fields.see_some hs
  obtain ⟨cell', h1, h2⟩ := WorldSpec.storeAll_eq e (a.cells ps (f ss)) a
  have h3 := storeAll_dom e _ (h.cells_dom he hp (f ss))
  have h4 := store_val e ps (a := a) (r := r) (f ss) h.tidy.inj (fun t => by rw [h.val e t, he]; rfl) hp
  rw [h1] at h3 h4 ⊢
  refine h.setCell h3 (Db.update_keys db e _) ?_
  intro x t
  rw [Db.update_lookup]
  by_cases hx : x = e
  · subst hx
    rw [if_pos rfl, he]
    show _ = (Fields.run ps f x r).lookup t
    unfold Fields.run
    rw [hs]
    exact h4 t
  · rw [if_neg hx, h2 x hx]
    exact h.val x t

theorem Fields.run_lookup_none (ps : List Param) (f : List AWorld.Seen → List (Option Bytes)) (e : EcsId) (r : Fields) (t : Ty) :
    (r.run ps f e).lookup t = none ↔ r.lookup t = none := by
  have : (r.run ps f e).map Prod.fst = r.map Prod.fst := by
    unfold Fields.run
    split
    · rfl
    · exact Fields.store_keys ps r _
  rw [lookup_none, lookup_none, this]

theorem mapM_isSome {α β : Type} {f g : α → Option β} {l : List α} (h : ∀ x, (f x).isSome = (g x).isSome) : (l.mapM f).isSome = (l.mapM g).isSome := by
  induction l with
  | nil => simp
  | cons x l ih =>
    rw [List.mapM_cons, List.mapM_cons]
    have hx := h x
    cases hf : f x <;> cases hg : g x <;> rw [hf, hg] at hx
    · rfl
    · cases hx
    · cases hx
    · cases hl : l.mapM f <;> cases hl' : l.mapM g <;> rw [hl, hl'] at ih <;> first | rfl | cases ih

theorem Fields.see_run {ps qs : List Param} (f : List AWorld.Seen → List (Option Bytes)) {e x : EcsId} {r : Fields} :
    ((r.run qs f x).see e ps).isSome = (r.see e ps).isSome := by
  unfold Fields.see
  apply mapM_isSome
  intro p
  have : ∀ t, ((r.run qs f x).lookup t).isSome = (r.lookup t).isSome := by
    intro t
    have := Fields.run_lookup_none qs f x r t
    cases h2 : r.lookup t with
    | none => rw [this.2 h2]
    | some v =>
      cases h1 : (r.run qs f x).lookup t with
      | none => rw [this.1 h1] at h2; cases h2
      | some v' => rfl
  cases p with
  | ids => rfl
  | «mut» t => show (Option.map _ _).isSome = (Option.map _ _).isSome; rw [Option.isSome_map, Option.isSome_map]; exact this t
  | ref t => show (Option.map _ _).isSome = (Option.map _ _).isSome; rw [Option.isSome_map, Option.isSome_map]; exact this t

/-- The body of `Client.getEach`. -/
abbrev getBody (f : List AWorld.Seen → List (Option Bytes)) : List Found → List (Option Bytes) := fun | some ss :: _ => f ss | _ => []

theorem Db.update_same {db : Db} {e : EcsId} {g : Fields → Fields} (h : ∀ x ∈ db, x.1 = e → g x.2 = x.2) : db.update e g = db := by
  unfold Db.update
  conv => rhs; rw [← List.map_id db]
  apply List.map_congr_left
  intro x hx
  show (if x.1 = e then (e, g x.2) else x) = x
  split
  · rename_i he
    rw [h x hx he, ← he]
  · rfl

theorem DbAt.gone {L : List Ty} {k d : Nat} {db : Db} {a : AWorld} (h : DbAt L k d db a) {e : EcsId} (he : Gone a.ents e) : e ∉ db.map Prod.fst := by
  intro hc
  have h1 := h.tidy.alive (h.ent e hc).1
  have h2 : a.isAlive e = .ok false := he.alive
  rw [h2] at h1; cases h1

theorem DbAt.visit {L : List Ty} {k d : Nat} {ps : List Param} (hp : AsksType ps) (f : List AWorld.Seen → List (Option Bytes)) (es : List EcsId) : ∀ {db : Db} {a : AWorld}
    (h0 : List Found), DbAt L k d db a → (∀ e ∈ es, e ∈ db.map Prod.fst ∨ Gone a.ents e) →
    ∃ (a' : AWorld), a.visit ps (getBody f) es h0 = (.ok ((db.got ps f es).reverse ++ h0), a') ∧ DbAt L k d (db.visit ps f es) a' ∧
      a'.ents = a.ents ∧ a'.types = a.types := by
  induction es with
  | nil => exact fun h0 h _ => ⟨_, rfl, h, rfl, rfl⟩
  | cons e es ih =>
    intro db a h0 h he
    have hal : ∃ b, a.isAlive e = .ok b := by
      rcases he e List.mem_cons_self with h1 | h1
      · exact ⟨true, h.tidy.alive (h.ent e h1).1⟩
      · exact ⟨false, h1.alive⟩
    obtain ⟨b, hal⟩ := hal
    have hrow := h.row hp e
    cases h3 : (db.lookup e).bind (Fields.see e · ps) with
    | none =>
      have hsame : db.update e (Fields.run ps f e) = db := by
        apply Db.update_same
        rintro ⟨x, r⟩ hx rfl
        rw [(lookup_some h.keys).2 hx] at h3
        show Fields.run ps f x r = r
        unfold Fields.run
        rw [show r.see x ps = none from h3]
      obtain ⟨a', g1, g2, g4, g5⟩ := ih (none :: h0) h (fun x hx => he x (List.mem_cons_of_mem _ hx))
      refine ⟨a', ?_, ?_, g4, g5⟩
      · unfold AWorld.visit
        rw [h3] at hrow
        simp only [hal, hrow]
        rw [g1]
        show _ = (Except.ok (((db.lookup e).bind (Fields.see e · ps) :: Db.got ps f es (db.update e (Fields.run ps f e))).reverse ++ h0), a')
        rw [h3, hsame]
        simp
      · show DbAt L k d (Db.visit ps f es (db.update e (Fields.run ps f e))) a'
        rw [hsame]; exact g2
    | some ss =>
      cases h1 : db.lookup e with
      | none => rw [h1] at h3; cases h3
      | some r =>
        have hs : r.see e ps = some ss := by rw [h1] at h3; exact h3
        obtain ⟨cell', q1, _⟩ := WorldSpec.storeAll_eq e (a.cells ps (f ss)) a
        obtain ⟨a', g1, g2, g4, g5⟩ := ih (some ss :: h0) (h.stored h1 hs f) (by
          intro x hx
          rw [Db.update_keys, q1]
          exact he x (List.mem_cons_of_mem _ hx))
        refine ⟨a', ?_, g2, g4.trans (by rw [q1]), g5.trans (by rw [q1])⟩
        unfold AWorld.visit
        rw [h3] at hrow
        simp only [hal, hrow]
        rw [show getBody f (some ss :: h0) = f ss from rfl, g1]
        show _ = (Except.ok (((db.lookup e).bind (Fields.see e · ps) :: Db.got ps f es (db.update e (Fields.run ps f e))).reverse ++ h0), a')
        rw [h3]
        simp

/-- The body of `Client.forEach`. -/
abbrev eachBody (f : List AWorld.Seen → List (Option Bytes)) : List (List AWorld.Seen) → List (Option Bytes) := fun | ss :: _ => f ss | [] => []

theorem sweep_log {row : EcsId → Option (List AWorld.Seen)} {cells : List (Option Bytes) → List (EcsId × Bytes)} (f : List AWorld.Seen → List (Option Bytes))
    (es : List EcsId) : ∀ (a : AWorld) (h : List (List AWorld.Seen)), AWorld.sweep row cells (Body.log (eachBody f)) es a h =
      ((AWorld.sweep row cells (fun (_ : Unit) ss => ((), f ss)) es a ()).1, (es.filterMap row).reverse ++ h) := by
  induction es with
  | nil => intro a h; rfl
  | cons e es ih =>
    intro a h
    unfold AWorld.sweep
    rw [List.filterMap_cons]
    cases row e with
    | none => exact ih a h
    | some ss =>
      simp only
      rw [show (Body.log (eachBody f) h ss) = (ss :: h, f ss) from rfl, ih]
      simp

theorem DbAt.loop {L : List Ty} {k d : Nat} {db : Db} {a : AWorld} (h : DbAt L k d db a) {ps : List Param} (hp : AsksType ps) (f : List AWorld.Seen → List (Option Bytes))
    {es : List EcsId} (hn : es.Nodup) (he : ∀ e, e ∈ es ↔ (a.row ps e).isSome = true) :
    DbAt L k d (db.run ps f) (AWorld.sweep (a.row ps) (a.cells ps) (Body.log (eachBody f)) es a []).1 ∧
      (AWorld.sweep (a.row ps) (a.cells ps) (Body.log (eachBody f)) es a []).2.Perm (db.rows ps) ∧
      (AWorld.sweep (a.row ps) (a.cells ps) (Body.log (eachBody f)) es a []).1.ents = a.ents ∧
      (AWorld.sweep (a.row ps) (a.cells ps) (Body.log (eachBody f)) es a []).1.types = a.types := by
  rw [sweep_log]
  refine ⟨?_, ?_, ?_⟩
  · show DbAt L k d (db.run ps f) (AWorld.sweep (a.row ps) (a.cells ps) (fun (_ : Unit) ss => ((), f ss)) es a ()).1
    rw [WorldSpec.sweep_each a hn he]
    unfold AWorld.each
    have key : ∀ (x : EcsId) (r : Fields) (ss : List AWorld.Seen), db.lookup x = some r → r.see x ps = some ss →
        (∀ y, (a.storeAll x (a.cells ps (f ss))).cell x y ≠ none → a.cell x y ≠ none) ∧
        ∀ t, (a.types t).bind ((a.storeAll x (a.cells ps (f ss))).cell x) = (r.store ps (f ss)).lookup t := by
      intro x r ss h1 h2
      have hpp := Fields.see_some h2
      exact ⟨fun y => storeAll_dom x _ (h.cells_dom h1 hpp (f ss)) x y, store_val x ps (a := a) (r := r) (f ss) h.tidy.inj (fun t => by rw [h.val x t, h1]; rfl) hpp⟩
    apply h.setCell
    · intro x y
      rw [h.row hp x]
      cases h1 : db.lookup x with
      | none => exact fun g => g
      | some r =>
        cases h2 : r.see x ps with
        | none =>
          show (match r.see x ps with | none => _ | some _ => _) ≠ none → _
          rw [h2]; exact fun g => g
        | some ss =>
          show (match r.see x ps with | none => _ | some _ => _) ≠ none → _
          rw [h2]; exact (key x r ss h1 h2).1 y
    · exact Db.run_keys db ps f
    · intro x t
      rw [Db.run_lookup]
      have hr := h.row hp x
      cases h1 : db.lookup x with
      | none =>
        rw [h1] at hr
        simp only [hr]
        have := h.val x t
        rw [h1] at this
        exact this
      | some r =>
        rw [h1] at hr
        replace hr : a.row ps x = r.see x ps := hr
        show _ = (Fields.run ps f x r).lookup t
        unfold Fields.run
        cases h2 : r.see x ps with
        | none =>
          rw [h2] at hr
          simp only [hr]
          have := h.val x t
          rw [h1] at this
          exact this
        | some ss =>
          rw [h2] at hr
          simp only [hr]
          exact (key x r ss h1 h2).2 t
  · show ((es.filterMap (a.row ps)).reverse ++ []).Perm (db.rows ps)
    rw [List.append_nil]
    refine (List.reverse_perm _).trans ?_
    have h1 : db.rows ps = (db.map Prod.fst).filterMap (a.row ps) := by
      have hall : ∀ x ∈ db, a.row ps x.1 = x.2.see x.1 ps := by
        intro x hx
        have : db.lookup x.1 = some x.2 := (lookup_some h.keys).2 hx
        rw [h.row hp x.1, this]
        rfl
      unfold Db.rows
      rw [List.filterMap_map]
      clear h he
      induction db with
      | nil => rfl
      | cons x db ih =>
        rw [List.filterMap_cons, List.filterMap_cons, ih (fun y hy => hall y (List.mem_cons_of_mem _ hy))]
        rw [show (a.row ps ∘ Prod.fst) x = x.2.see x.1 ps from hall x List.mem_cons_self]
    have h2 : (db.map Prod.fst).filterMap (a.row ps) = ((db.map Prod.fst).filter (fun e => (a.row ps e).isSome)).filterMap (a.row ps) := by
      generalize db.map Prod.fst = l
      induction l with
      | nil => rfl
      | cons e l ih =>
        rw [List.filterMap_cons, List.filter_cons]
        cases hr : a.row ps e with
        | none =>
          simp only [Option.isSome_none]
          exact ih
        | some ss =>
          simp only [Option.isSome_some, if_true]
          rw [List.filterMap_cons, hr, ih]
    rw [h1, h2]
    apply List.Perm.filterMap
    rw [List.perm_ext_iff_of_nodup hn (h.keys.filter _)]
    intro e
    rw [he, List.mem_filter]
    constructor
    · intro g
      refine ⟨?_, g⟩
      apply Classical.byContradiction
      intro hc
      rw [h.row hp e, lookup_none.2 hc] at g
      cases g
    · exact And.right
  · show (AWorld.sweep (a.row ps) (a.cells ps) (fun (_ : Unit) ss => ((), f ss)) es a ()).1.ents = _ ∧ (AWorld.sweep (a.row ps) (a.cells ps) (fun (_ : Unit) ss => ((), f ss)) es a ()).1.types = _
    rw [WorldSpec.sweep_each a hn he]
    exact ⟨rfl, rfl⟩

end Ellecs
