import Verif.Spec.Modules
import Verif.Props.Run
/-!
# Lemmas about importing several modules
-/
namespace Verif
open Spec

/-- The objects of a module, seen from outside. -/
def qualify (name : Str) (types : List (Str × List Str)) : List (Str × List Str) :=
  types.map fun t => (t.1, name :: t.2)

/-- State of the import of a module in the presence of other modules. -/
def embed (before : Importing) (name : Str) (st : Importing) : Importing where
  vars := qualify name st.vars
  types := before.types ++ qualify name st.types
  modules := before.modules ++ st.modules.map (name :: ·)
  executed := before.executed ++ st.executed.map fun e =>
    { object := name :: e.object, stmt := e.stmt, known := before.types ++ qualify name e.known }

/-- No object is part of the module. -/
structure Elsewhere (before : Importing) (name : Str) : Prop where
  types : ∀ t ∈ before.types, ∀ p, t.2 ≠ name :: p
  modules : ∀ m ∈ before.modules, ∀ p, m ≠ name :: p

/-- No type is registered twice. -/
def Separate (before st : Importing) : Prop :=
  ∀ t ∈ st.types, t.1 ∉ before.types.map (·.1)

theorem lookup_qualify (name : Str) (l : List (Str × List Str)) (x : Str) :
    (qualify name l).lookup x = (l.lookup x).map (name :: ·) := by
  unfold qualify
  induction l with
  | nil => rfl
  | cons a l ih =>
    obtain ⟨y, v⟩ := a
    simp only [List.map_cons, List.lookup_cons]
    cases x == y with
    | true => rfl
    | false => exact ih

theorem embed_path (before : Importing) (name : Str) (he : Elsewhere before name) (st : Importing)
    (path : List Str) :
    name :: path ∈ (embed before name st).types.map (·.2) ↔ path ∈ st.types.map (·.2) := by
  simp only [embed, qualify, List.map_append, List.mem_append, List.mem_map]
  constructor
  · rintro (⟨t, ht, e⟩ | ⟨t, ⟨u, hu, rfl⟩, e⟩)
    · exact absurd e (he.types t ht path)
    · cases e
      exact ⟨u, hu, rfl⟩
  · rintro ⟨u, hu, rfl⟩
    exact .inr ⟨_, ⟨u, hu, rfl⟩, rfl⟩

theorem embed_module (before : Importing) (name : Str) (he : Elsewhere before name) (st : Importing)
    (path : List Str) :
    name :: path ∈ (embed before name st).modules ↔ path ∈ st.modules := by
  simp only [embed, List.mem_append, List.mem_map]
  constructor
  · rintro (h | ⟨u, hu, e⟩)
    · exact absurd rfl (he.modules _ h path)
    · cases e
      exact hu
  · exact fun h => .inr ⟨_, h, rfl⟩

theorem embed_type (before : Importing) (name : Str) (st : Importing) (t : Str) :
    t ∈ (embed before name st).types.map (·.1) ↔
      t ∈ before.types.map (·.1) ∨ t ∈ st.types.map (·.1) := by
  simp only [embed, qualify, List.map_append, List.mem_append, List.mem_map]
  constructor
  · rintro (h | ⟨_, ⟨u, hu, rfl⟩, e⟩)
    · exact .inl h
    · exact .inr ⟨u, hu, e⟩
  · rintro (h | ⟨u, hu, e⟩)
    · exact .inl h
    · exact .inr ⟨_, ⟨u, hu, rfl⟩, e⟩

theorem createType_embed (before : Importing) (name : Str) (he : Elsewhere before name)
    (st st' : Importing) (path : List Str) (t : Str) (bases : List Str)
    (h : st.createType path t bases = .ok st') :
    (embed before name st).createType (name :: path) t bases =
      if t ∈ before.types.map (·.1) then .error (.alreadyRegistered t)
      else .ok (embed before name st') := by
  unfold Importing.createType at h ⊢
  have hpm : (name :: path ∈ (embed before name st).types.map (·.2) ∨
      name :: path ∈ (embed before name st).modules) ↔ (path ∈ st.types.map (·.2) ∨ path ∈ st.modules) := by
    rw [embed_path before name he, embed_module before name he]
  split at h
  · cases h
  · rename_i hb
    split at h
    · cases h
    · rename_i hp
      split at h
      · cases h
      · rename_i ht
        cases h
        have hb' : ∀ b ∈ bases, b ∈ (embed before name st).types.map (·.1) := by
          intro b hm
          rw [embed_type]
          exact .inr (Decidable.not_not.1 hb b hm)
        rw [if_neg (Decidable.not_not.2 hb'), if_neg fun h => hp (hpm.1 h)]
        by_cases hin : t ∈ before.types.map (·.1)
        · rw [if_pos hin, if_pos ((embed_type ..).2 (.inl hin))]
        · rw [if_neg hin, if_neg fun h => ((embed_type ..).1 h).elim hin ht]
          simp [embed, qualify]

theorem separate_more (before st : Importing) (t : Str) (path : List Str)
    (hs : Separate before st) (h : t ∉ before.types.map (·.1)) :
    Separate before { st with types := st.types ++ [(t, path)] } := by
  intro u hu
  rcases List.mem_append.1 hu with h' | h'
  · exact hs u h'
  · rw [List.mem_singleton] at h'
    subst h'
    exact h

theorem createType_types (st st' : Importing) (path : List Str) (t : Str) (bases : List Str)
    (h : st.createType path t bases = .ok st') : st'.types = st.types ++ [(t, path)] := by
  unfold Importing.createType at h
  repeat' split at h
  all_goals cases h
  rfl

/-- What happens in the presence of other modules: either the same, or a type turns out to
be registered already. -/
def CarriesOn (before : Importing) (name : Str) (st' : Importing)
    (r : Except ImportProblem Importing) : Prop :=
  (Separate before st' ∧ r = .ok (embed before name st')) ∨
    ∃ t ∈ st'.types.map (·.1), t ∈ before.types.map (·.1) ∧ r = .error (.alreadyRegistered t)

theorem createType_follows (before : Importing) (name : Str) (he : Elsewhere before name)
    (st st' : Importing) (hs : Separate before st) (path : List Str) (t : Str) (bases : List Str)
    (h : st.createType path t bases = .ok st') :
    CarriesOn before name st' ((embed before name st).createType (name :: path) t bases) := by
  have ht := createType_types st st' path t bases h
  rw [createType_embed before name he st st' path t bases h]
  by_cases hin : t ∈ before.types.map (·.1)
  · rw [if_pos hin]
    exact .inr ⟨t, by simp [ht], hin, rfl⟩
  · rw [if_neg hin]
    refine .inl ⟨?_, rfl⟩
    intro u hu
    rw [ht] at hu
    exact separate_more before st t path hs hin u hu

theorem create_follows (before : Importing) (name : Str) (he : Elsewhere before name)
    (st st' : Importing) (hs : Separate before st) (path : List Str) (i : Introducer)
    (h : st.create path i = .ok st') :
    CarriesOn before name st' ((embed before name st).create (name :: path) i) := by
  cases i with
  | same p =>
    cases h
    exact .inl ⟨hs, rfl⟩
  | submodule p n =>
    simp only [Importing.create] at h ⊢
    split at h
    · cases h
    · rename_i hp
      cases h
      rw [if_neg fun h => hp ((embed_path before name he st path).1 h)]
      exact .inl ⟨hs, by simp [embed]⟩
  | type t p n d f =>
    cases t with
    | module =>
      cases h
      exact .inl ⟨hs, rfl⟩
    | enum t => exact createType_follows before name he st st' hs path t _ h
    | record t bases holder => exact createType_follows before name he st st' hs path t _ h

theorem object_qualify (name : Str) (parent : List Str) (i : Introducer) :
    Introducer.object (name :: parent) i = name :: Introducer.object parent i := by
  cases i <;> rfl

theorem line_follows (files : List (List Line)) (before : Importing) (name : Str)
    (he : Elsewhere before name) (st st' : Importing) (hs : Separate before st) (l : Line)
    (h : st.line files l = .ok st') :
    CarriesOn before name st' ((embed before name st).line files l) := by
  have hv : ∀ x, (embed before name st).vars.lookup x = (st.vars.lookup x).map (name :: ·) :=
    fun x => lookup_qualify name st.vars x
  cases l with
  | introduce x i =>
    simp only [Importing.line, hv] at h ⊢
    cases hp : st.vars.lookup i.parent with
    | none => rw [hp] at h; cases h
    | some parent =>
      cases hx : st.vars.lookup x with
      | some _ => rw [hp, hx] at h; cases h
      | none =>
        rw [hp, hx] at h
        dsimp only [Option.map] at h ⊢
        rw [object_qualify]
        cases hc : st.create (Introducer.object parent i) i with
        | error e => rw [hc] at h; cases h
        | ok st1 =>
          rw [hc] at h
          cases h
          rcases create_follows before name he st st1 hs _ i hc with ⟨h1, h2⟩ | ⟨t, h1, h2, h3⟩
          · rw [h2]
            exact .inl ⟨h1, rfl⟩
          · rw [h3]
            exact .inr ⟨t, h1, h2, rfl⟩
  | call f =>
    simp only [Importing.line, hv] at h ⊢
    cases hp : st.vars.lookup f with
    | none => rw [hp] at h; cases h
    | some object =>
      cases hx : linked files f with
      | none => rw [hp, hx] at h; cases h
      | some body =>
        rw [hp, hx] at h
        cases h
        refine .inl ⟨hs, ?_⟩
        simp [embed]
  | postamble d lam =>
    simp only [Importing.line, hv] at h ⊢
    cases hp : st.vars.lookup t%"context" with
    | none => rw [hp] at h; cases h
    | some object =>
      rw [hp] at h
      cases h
      refine .inl ⟨hs, ?_⟩
      simp [embed]
  | _ =>
    cases h
    exact .inl ⟨hs, rfl⟩

theorem createType_grows (st st' : Importing) (path : List Str) (t : Str) (bases : List Str)
    (h : st.createType path t bases = .ok st') : ∀ u ∈ st.types, u ∈ st'.types := by
  intro u hu
  rw [createType_types st st' path t bases h]
  exact List.mem_append_left _ hu

theorem line_grows (files : List (List Line)) (st st' : Importing) (l : Line)
    (h : st.line files l = .ok st') : ∀ u ∈ st.types, u ∈ st'.types := by
  cases l with
  | introduce x i =>
    simp only [Importing.line] at h
    cases hp : st.vars.lookup i.parent with
    | none => rw [hp] at h; cases h
    | some parent =>
      cases hx : st.vars.lookup x with
      | some _ => rw [hp, hx] at h; cases h
      | none =>
        rw [hp, hx] at h
        dsimp only at h
        cases hc : st.create (Introducer.object parent i) i with
        | error e => rw [hc] at h; cases h
        | ok st1 =>
          rw [hc] at h
          cases h
          cases i with
          | same p => cases hc; exact fun _ => id
          | submodule p n =>
            simp only [Importing.create] at hc
            split at hc
            · cases hc
            · cases hc
              exact fun _ => id
          | type t p n d f =>
            cases t with
            | module => cases hc; exact fun _ => id
            | enum t => exact createType_grows st st1 _ _ _ hc
            | record t bases holder => exact createType_grows st st1 _ _ _ hc
  | call f =>
    simp only [Importing.line] at h
    split at h
    · cases h
    · cases h
    · cases h
      exact fun _ => id
  | postamble d lam =>
    simp only [Importing.line] at h
    split at h
    · cases h
    · cases h
      exact fun _ => id
  | _ =>
    cases h
    exact fun _ => id

theorem lines_grow (files : List (List Line)) (l : List Line) : ∀ (st st' : Importing),
    st.lines files l = .ok st' → ∀ u ∈ st.types, u ∈ st'.types := by
  induction l with
  | nil => intro st st' h; cases h; exact fun _ => id
  | cons x l ih =>
    intro st st' h u hu
    simp only [Importing.lines] at h
    cases hl : st.line files x with
    | error e => rw [hl] at h; cases h
    | ok st1 =>
      rw [hl] at h
      exact ih st1 st' h u (line_grows files st st1 x hl u hu)

theorem lines_follow (files : List (List Line)) (before : Importing) (name : Str)
    (he : Elsewhere before name) (l : List Line) : ∀ (st st' : Importing), Separate before st →
    st.lines files l = .ok st' →
    CarriesOn before name st' ((embed before name st).lines files l) := by
  induction l with
  | nil =>
    intro st st' hs h
    cases h
    exact .inl ⟨hs, rfl⟩
  | cons x l ih =>
    intro st st' hs h
    simp only [Importing.lines] at h ⊢
    cases hl : st.line files x with
    | error e => rw [hl] at h; cases h
    | ok st1 =>
      rw [hl] at h
      rcases line_follows files before name he st st1 hs x hl with ⟨h1, h2⟩ | ⟨t, h1, h2, h3⟩
      · rw [h2]
        exact ih st1 st' h1 h
      · rw [h3]
        obtain ⟨u, hu, rfl⟩ := List.mem_map.1 h1
        exact .inr ⟨u.1, List.mem_map.2 ⟨u, lines_grow files l st1 st' h u hu, rfl⟩, h2, rfl⟩

/-- A module that can be imported on its own, imported after others. -/
theorem next_follows (before : Importing) (name : Str) (he : Elsewhere before name)
    (files : List (List Line)) (st : Importing) (h : importModule files = .ok st) :
    CarriesOn before name st (importNext before name files) := by
  have := lines_follow files before name he (files.headD []) { vars := [(t%"root", [])] } st
    (fun t ht => by cases ht) h
  have e : embed before name { vars := [(t%"root", [])] } =
      { before with vars := [(t%"root", [name])] } := by
    simp [embed, qualify]
  rw [e] at this
  exact this

theorem elsewhere_embed (before : Importing) (name other : Str) (hne : name ≠ other)
    (he : Elsewhere before other) (st : Importing) : Elsewhere (embed before name st) other := by
  constructor
  · intro t ht p e
    rcases List.mem_append.1 ht with h | h
    · exact he.types t h p e
    · obtain ⟨u, _, rfl⟩ := List.mem_map.1 h
      cases e
      exact hne rfl
  · intro t ht p e
    rcases List.mem_append.1 ht with h | h
    · exact he.modules t h p e
    · obtain ⟨u, _, rfl⟩ := List.mem_map.1 h
      cases e
      exact hne rfl

theorem separate_embed (before st other : Importing) (name : Str) :
    Separate (embed before name st) other ↔ Separate before other ∧ Separate st other := by
  unfold Separate
  constructor
  · intro h
    exact ⟨fun t ht hin => h t ht ((embed_type ..).2 (.inl hin)),
      fun t ht hin => h t ht ((embed_type ..).2 (.inr hin))⟩
  · rintro ⟨h1, h2⟩ t ht hin
    exact ((embed_type ..).1 hin).elim (h1 t ht) (h2 t ht)

theorem all_follow (l : List (Str × List (List Line) × Importing)) : ∀ (before : Importing),
    (∀ m ∈ l, importModule m.2.1 = .ok m.2.2) → (l.map (·.1)).Nodup →
    (∀ m ∈ l, Elsewhere before m.1) →
    ((∃ st, importAll before (l.map fun m => (m.1, m.2.1)) = .ok st) ↔
      (∀ m ∈ l, Separate before m.2.2) ∧ l.Pairwise fun m m' => Separate m.2.2 m'.2.2) ∧
    ∀ st, importAll before (l.map fun m => (m.1, m.2.1)) = .ok st →
      st.types = before.types ++ l.flatMap (fun m => qualify m.1 m.2.2.types) ∧
      st.executed.map (fun e => (e.object, e.stmt)) = before.executed.map (fun e => (e.object, e.stmt)) ++
        l.flatMap fun m => m.2.2.executed.map fun e => (m.1 :: e.object, e.stmt) := by
  induction l with
  | nil =>
    intro before _ _ _
    refine ⟨⟨fun _ => ⟨by simp, .nil⟩, fun _ => ⟨before, rfl⟩⟩, ?_⟩
    intro st h
    cases h
    simp
  | cons m l ih =>
    intro before him hnd he
    obtain ⟨name, files, st1⟩ := m
    rw [List.map_cons, List.nodup_cons] at hnd
    have h1 := next_follows before name (he _ List.mem_cons_self) files st1
      (him _ List.mem_cons_self)
    simp only [List.map_cons, importAll]
    rcases h1 with ⟨hs, h1⟩ | ⟨t, ht1, ht2, h1⟩
    · rw [h1]
      have := ih (embed before name st1) (fun m hm => him m (by simp [hm])) hnd.2
        (fun m hm => elsewhere_embed before name m.1
          (fun e => hnd.1 (List.mem_map.2 ⟨m, hm, e.symm⟩)) (he m (by simp [hm])) st1)
      refine ⟨this.1.trans ?_, ?_⟩
      · rw [List.pairwise_cons]
        constructor
        · rintro ⟨h2, h3⟩
          refine ⟨?_, fun m hm => ((separate_embed ..).1 (h2 m hm)).2, h3⟩
          intro m hm
          rcases List.mem_cons.1 hm with rfl | hm
          · exact hs
          · exact ((separate_embed ..).1 (h2 m hm)).1
        · rintro ⟨h2, h3, h4⟩
          exact ⟨fun m hm => (separate_embed ..).2 ⟨h2 m (by simp [hm]), h3 m hm⟩, h4⟩
      · intro st hst
        obtain ⟨h2, h3⟩ := this.2 st hst
        rw [h2, h3]
        simp [embed]
    · rw [h1]
      refine ⟨⟨?_, ?_⟩, ?_⟩
      · rintro ⟨st, h⟩
        cases h
      · rintro ⟨h2, _⟩
        obtain ⟨u, hu, rfl⟩ := List.mem_map.1 ht1
        exact absurd ht2 (h2 _ List.mem_cons_self u hu)
      · intro st h
        cases h

end Verif
