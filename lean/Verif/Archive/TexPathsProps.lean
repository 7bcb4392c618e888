import Verif.Archive.TexPathsSpec
import Verif.Archive.SearchProps

/-!
C210: the wads of a map.
-/

namespace Verif.Archive.Wads

open Verif.Cmdlib (Str)
open Spec

/-- Registering an archive that is there. -/
theorem arc_added {d : Disk} {q : Path} (h : IsArc d q) (hne : q.isEmpty = false) (st : State) (ext : Bool) :
    ∃ st' a, addArchive d st q ext = .ok (st', some (.arc a.path)) ∧ a ∈ st'.arcs ∧ (d a.path).id? = (d q).id? ∧
      (a ∈ st.arcs ∨ (a.path = q ∧ a.external = ext)) := by
  obtain ⟨id, bytes, hd, ha⟩ := h
  unfold addArchive
  rw [hne]
  simp only [Bool.false_eq_true, if_false, hd, Node.there, Bool.not_true]
  unfold addInternal
  simp only [hd, Node.isDir, Bool.false_eq_true, if_false]
  rcases hf : st.arcs.find? (fun a => same d a.path q) with _ | a
  · have hopen : ∃ pack, (if Cmdlib.iequals q.extension [46, 112, 97, 107] = true then openPak bytes
        else if Cmdlib.iequals q.extension [46, 119, 97, 100] = true then openWad bytes else .error) = .ok pack := by
      rcases ha with ⟨h1, h2⟩ | ⟨h1, h2, h3⟩
      · rw [if_pos ((iequals_sameText _ _).mpr h1)]
        obtain ⟨q, hq⟩ := openPak_sound h2
        exact ⟨_, hq⟩
      · rw [if_neg (fun h => h1 ((iequals_sameText _ _).mp h)), if_pos ((iequals_sameText _ _).mpr h2)]
        obtain ⟨q, hq⟩ := openWad_sound h3
        exact ⟨_, hq⟩
    obtain ⟨pack, hp⟩ := hopen
    exact ⟨⟨st.dirs, ⟨q, ext, pack⟩ :: st.arcs⟩, ⟨q, ext, pack⟩, by rw [hf, hp], by simp, by rw [hd], Or.inr ⟨rfl, rfl⟩⟩
  · have hm := List.mem_of_find?_eq_some hf
    have hs := List.find?_some hf
    exact ⟨st, a, by rw [hf], hm, by rw [(same_iff d a.path q).mp hs, hd], Or.inl hm⟩

theorem arc_nonempty {d : Disk} {q : Path} (h : IsArc d q) : q.isEmpty = false := by
  obtain ⟨id, bytes, -, ha⟩ := h
  by_contra hc
  rcases q with ⟨a, l⟩
  have hl : l = [] := by
    cases a <;> cases l <;> simp [Path.isEmpty] at hc ⊢
  subst hl
  have he : (⟨a, []⟩ : Path).extension = [] := rfl
  unfold ArchiveFile at ha
  rw [he] at ha
  rcases ha with ⟨h1, -⟩ | ⟨-, h1, -⟩
  · have := (iequals_sameText _ _).mpr h1
    revert this
    decide +kernel
  · have := (iequals_sameText _ _).mpr h1
    revert this
    decide +kernel

theorem filename_added {d : Disk} {q : Path} (h : IsArc d q.filename) (hm : d q = .missing) (hne : q.isEmpty = false) (st : State)
    (ext : Bool) : addArchive d st q ext = addArchive d st q.filename ext := by
  have hf := arc_nonempty h
  obtain ⟨id, bytes, hd, -⟩ := h
  unfold addArchive
  rw [hne, hm, hd, hf]
  simp [Node.there]

theorem nowhere_added {d : Disk} {q : Path} (h : Nowhere d q) (st : State) (ext : Bool) :
    addArchive d st q ext = .ok (st, none) := by
  unfold addArchive
  by_cases he : q.isEmpty = true
  · rw [if_pos he]
  · rw [if_neg he, h.1, h.2]
    rfl

theorem added_keeps {d : Disk} {st st' : State} {p : Path} {ext : Bool} {r : Option Ref}
    (h : addArchive d st p ext = .ok (st', r)) : ∀ a ∈ st.arcs, a ∈ st'.arcs := by
  have := addArchive_added h
  cases this <;> intro a ha <;> simp [ha]

theorem tryPaths_keeps {d : Disk} {p : Path} : ∀ (ws : List WadPath) {st st' : State} {r : Option Ref},
    tryPaths d p ws st = .ok (st', r) → ∀ a ∈ st.arcs, a ∈ st'.arcs := by
  intro ws
  induction ws with
  | nil => intro st st' r h; exact added_keeps h
  | cons w ws ih =>
    intro st st' r h
    rw [tryPaths, Outcome.bind_eq_ok] at h
    obtain ⟨⟨s1, r1⟩, h1, h2⟩ := h
    have k := added_keeps h1
    rcases r1 with _ | a
    · exact fun a ha => ih h2 a (k a ha)
    · simp only [Outcome.ok.injEq, Prod.mk.injEq] at h2
      rw [← h2.1]; exact k

theorem load_keeps {d : Disk} {ws : List WadPath} {st st' : State} {p : Path} {r : Option Ref}
    (h : loadTexturePath d ws st p = .ok (st', r)) : ∀ a ∈ st.arcs, a ∈ st'.arcs := by
  unfold loadTexturePath at h
  by_cases ha : p.abs = true
  · rw [if_pos ha] at h; exact added_keeps h
  · rw [if_neg ha] at h; exact tryPaths_keeps ws h

theorem join_isEmpty {v p : Path} (h : p.isEmpty = false) : (v.join p).isEmpty = false := by
  unfold Path.join
  by_cases ha : p.abs = true
  · rw [if_pos ha]; exact h
  · rw [if_neg ha]
    simp only [Path.isEmpty, Bool.not_eq_true] at h ha ⊢
    rw [ha] at h
    rcases hv : v.parts <;> rcases hp : p.parts <;> simp_all

/-- One listed wad: it is registered, and it is the one found. -/
theorem load_at {d : Disk} {ws : List WadPath} {p c : Path} (hat : At d ws p c) (hc : IsArc d c) (hne : p.isEmpty = false)
    (st : State) : ∃ st' a, loadTexturePath d ws st p = .ok (st', some (.arc a.path)) ∧ a ∈ st'.arcs ∧
      (d a.path).id? = (d c).id? ∧ (a ∈ st.arcs ∨ a.path = c) := by
  unfold loadTexturePath
  cases hat with
  | absolute ha =>
    rw [if_pos ha]
    obtain ⟨st', a, h1, h2, h3, h4⟩ := arc_added hc hne st false
    exact ⟨st', a, h1, h2, h3, h4.imp_right And.left⟩
  | below before w after ha hws hb =>
    rw [if_neg (by rw [ha]; simp), hws]
    clear hws
    induction before with
    | nil =>
      rw [List.nil_append, tryPaths]
      obtain ⟨st', a, h1, h2, h3, h4⟩ := arc_added hc (join_isEmpty hne) st w.2
      exact ⟨st', a, by rw [h1, Outcome.ok_bind], h2, h3, h4.imp_right And.left⟩
    | cons v before ih =>
      rw [List.cons_append, tryPaths, nowhere_added (hb v (by simp)), Outcome.ok_bind]
      exact ih (fun u hu => hb u (by simp [hu]))
  | beside before w after ha hws hb hm =>
    rw [if_neg (by rw [ha]; simp), hws]
    clear hws
    induction before with
    | nil =>
      rw [List.nil_append, tryPaths, filename_added hc hm (join_isEmpty hne)]
      obtain ⟨st', a, h1, h2, h3, h4⟩ := arc_added hc (arc_nonempty hc) st w.2
      exact ⟨st', a, by rw [h1, Outcome.ok_bind], h2, h3, h4.imp_right And.left⟩
    | cons v before ih =>
      rw [List.cons_append, tryPaths, nowhere_added (hb v (by simp)), Outcome.ok_bind]
      exact ih (fun u hu => hb u (by simp [hu]))
  | here ha hb =>
    rw [if_neg (by rw [ha]; simp)]
    induction ws with
    | nil =>
      obtain ⟨st', a, h1, h2, h3, h4⟩ := arc_added hc hne st false
      exact ⟨st', a, h1, h2, h3, h4.imp_right And.left⟩
    | cons v ws ih =>
      rw [tryPaths, nowhere_added (hb v (by simp)), Outcome.ok_bind]
      exact ih (fun u hu => hb u (by simp [hu]))

theorem loadParts_at {d : Disk} {toPath : Str → Path} {ws : List WadPath} : ∀ (l : List Str) {st st' : State} {any any' : Bool},
    loadParts d toPath ws l st any = .ok (st', any') → (∀ a ∈ st.arcs, a ∈ st'.arcs) ∧ (any = true → any' = true) ∧
      ∀ s ∈ l, ∀ c, At d ws (toPath s) c → IsArc d c → (toPath s).isEmpty = false → Registered d st' c ∧ any' = true := by
  intro l
  induction l with
  | nil =>
    intro st st' any any' h
    simp only [loadParts, Outcome.ok.injEq, Prod.mk.injEq] at h
    rw [← h.1, ← h.2]
    exact ⟨fun a ha => ha, fun ha => ha, by simp⟩
  | cons s l ih =>
    intro st st' any any' h
    rw [loadParts, Outcome.bind_eq_ok] at h
    obtain ⟨⟨s1, r1⟩, h1, h2⟩ := h
    obtain ⟨k, hany, hl⟩ := ih h2
    refine ⟨fun a ha => k a (load_keeps h1 a ha), fun ha => hany (by simp [ha]), ?_⟩
    intro t ht c hat hc hne
    rcases List.mem_cons.mp ht with rfl | ht
    · obtain ⟨s1', a, e, ha, hid, -⟩ := load_at hat hc hne st
      rw [e] at h1
      simp only [Outcome.ok.injEq, Prod.mk.injEq] at h1
      obtain ⟨rfl, rfl⟩ := h1
      exact ⟨⟨a, k a ha, hid⟩, hany (by simp)⟩
    · exact hl t ht c hat hc hne

/-- The text that counts is that of `_wad`, and that of `wad` if there is none. -/
def Text (wad_ wad text : Str) : Prop := (wad_ ≠ [] ∧ text = wad_) ∨ (wad_ = [] ∧ text = wad)

theorem text_eq {wad_ wad text : Str} (h : Text wad_ wad text) : (if wad_ = [] then wad else wad_) = text := by
  rcases h with ⟨h1, h2⟩ | ⟨h1, h2⟩
  · rw [if_neg h1, h2]
  · rw [if_pos h1, h2]

/-- Every wad of the list of the world that is there is registered. -/
theorem listed_registered {d : Disk} {toPath : Str → Path} {ws : List WadPath} {wad_ wad text : Str} {deflt : Path}
    {st st' : State} (h : ensure d toPath ws wad_ wad deflt st = .ok st') (ht : Text wad_ wad text) {s : Str}
    (hs : s ∈ parts text) {c : Path} (hat : At d ws (toPath s) c) (hc : IsArc d c) (hne : (toPath s).isEmpty = false) :
    Registered d st' c := by
  unfold ensure at h
  simp only [text_eq ht] at h
  have htx : text ≠ [] := by
    rintro rfl
    simp [parts] at hs
  rw [if_neg htx, Outcome.bind_eq_ok] at h
  obtain ⟨⟨s1, any⟩, h1, h2⟩ := h
  obtain ⟨-, -, hl⟩ := loadParts_at _ h1
  obtain ⟨hr, rfl⟩ := hl s hs c hat hc hne
  simp only [if_true, Outcome.ok.injEq] at h2
  rw [← h2]
  exact hr

/-- There is nothing at a path, nor below the wad paths, nor in the working directory. -/
def Absent (d : Disk) (ws : List WadPath) (p : Path) : Prop :=
  (p.isEmpty = true ∨ Nowhere d p) ∧ (p.abs = false → ∀ v ∈ ws, Nowhere d (v.1.join p))

theorem absent_load {d : Disk} {ws : List WadPath} {p : Path} (h : Absent d ws p) (st : State) :
    loadTexturePath d ws st p = .ok (st, none) := by
  have h0 : ∀ ext, addArchive d st p ext = .ok (st, none) := by
    intro ext
    rcases h.1 with he | hn
    · unfold addArchive; rw [if_pos he]
    · exact nowhere_added hn st ext
  unfold loadTexturePath
  by_cases ha : p.abs = true
  · rw [if_pos ha]; exact h0 false
  · rw [if_neg ha]
    have hb := h.2 (by simpa using ha)
    clear h
    induction ws with
    | nil => exact h0 false
    | cons v ws ih =>
      rw [tryPaths, nowhere_added (hb v (by simp)), Outcome.ok_bind]
      exact ih (fun u hu => hb u (by simp [hu]))

theorem absent_parts {d : Disk} {toPath : Str → Path} {ws : List WadPath} (st : State) : ∀ (l : List Str),
    (∀ s ∈ l, Absent d ws (toPath s)) → loadParts d toPath ws l st false = .ok (st, false) := by
  intro l
  induction l with
  | nil => intro _; rfl
  | cons s l ih =>
    intro h
    rw [loadParts, absent_load (h s (by simp)), Outcome.ok_bind]
    exact ih (fun t ht => h t (by simp [ht]))

/-- Without a list, or with a list of which no wad is there, the wad with the name of the map is registered if it is there. -/
theorem default_registered {d : Disk} {toPath : Str → Path} {ws : List WadPath} {wad_ wad text : Str} {deflt c : Path}
    {st st' : State} (h : ensure d toPath ws wad_ wad deflt st = .ok st') (ht : Text wad_ wad text)
    (hno : ∀ s ∈ parts text, Absent d ws (toPath s)) (hthere : d deflt ≠ .missing) (hat : At d ws deflt c) (hc : IsArc d c)
    (hne : deflt.isEmpty = false) : Registered d st' c := by
  unfold ensure at h
  have hth : (d deflt).there = true := by
    cases hd : d deflt with
    | missing => exact absurd hd hthere
    | dir => rfl
    | file => rfl
  simp only [text_eq ht] at h
  have h0 : (if text = [] then Outcome.ok (st, false) else loadParts d toPath ws (parts text) st false) = .ok (st, false) := by
    split_ifs
    · rfl
    · exact absent_parts st _ hno
  rw [h0] at h
  simp only [Outcome.ok_bind, Bool.false_eq_true, if_false, hth, if_true] at h
  obtain ⟨s1, a, e, ha, hid, -⟩ := load_at hat hc hne st
  rw [e, Outcome.ok_bind] at h
  simp only [Outcome.ok.injEq] at h
  rw [← h]
  exact ⟨a, ha, hid⟩

/-- Nothing that was registered is lost. -/
theorem ensure_keeps {d : Disk} {toPath : Str → Path} {ws : List WadPath} {wad_ wad : Str} {deflt : Path}
    {st st' : State} (h : ensure d toPath ws wad_ wad deflt st = .ok st') : ∀ a ∈ st.arcs, a ∈ st'.arcs := by
  unfold ensure at h
  simp only at h
  rw [Outcome.bind_eq_ok] at h
  obtain ⟨⟨s1, any⟩, h1, h2⟩ := h
  have k : ∀ a ∈ st.arcs, a ∈ s1.arcs := by
    split_ifs at h1
    · simp only [Outcome.ok.injEq, Prod.mk.injEq] at h1
      rw [← h1.1]; exact fun a ha => ha
    · exact (loadParts_at _ h1).1
    · exact (loadParts_at _ h1).1
  split_ifs at h2
  · simp only [Outcome.ok.injEq] at h2
    rw [← h2]; exact k
  · rw [Outcome.bind_eq_ok] at h2
    obtain ⟨⟨s2, r⟩, h3, h4⟩ := h2
    simp only [Outcome.ok.injEq] at h4
    rw [← h4]
    exact fun a ha => load_keeps h3 a (k a ha)
  · simp only [Outcome.ok.injEq] at h2
    rw [← h2]; exact k

/-- The list is cut at the semicolons. -/
theorem parts_spec (s : Str) : IsParts s (parts s) := by
  induction hn : s.length using Nat.strong_induction_on generalizing s with
  | _ n ih =>
  match s, hn with
  | [], _ => exact ⟨by simp [parts], Or.inl (by simp [parts])⟩
  | a :: l, hn =>
    have hall : (59 : UInt8) ∉ (a :: l).takeWhile (· ≠ 59) := by
      intro hm
      simpa using List.mem_takeWhile_imp hm
    have hsplit := List.takeWhile_append_dropWhile (p := fun x : UInt8 => decide (x ≠ 59)) (l := a :: l)
    have hdrop : (a :: l).drop (((a :: l).takeWhile (· ≠ 59)).length + 1) = ((a :: l).dropWhile (· ≠ 59)).drop 1 := by
      conv_lhs => rw [← hsplit]
      rw [List.drop_append]
      simp
    rw [parts]
    rw [hdrop]
    generalize ht : (a :: l).takeWhile (· ≠ 59) = t at *
    have hhead : ∀ b r, (a :: l).dropWhile (· ≠ 59) = b :: r → b = 59 := by
      intro b r hr
      have := List.head_dropWhile_not (fun x : UInt8 => decide (x ≠ 59)) (l := a :: l) (by rw [hr]; simp)
      simp only [hr, List.head_cons] at this
      simpa using this
    clear hdrop ht
    generalize (a :: l).dropWhile (· ≠ 59) = m at *
    rcases m with _ | ⟨b, r⟩
    · rw [List.append_nil] at hsplit
      refine ⟨by simp [parts]; exact hall, Or.inr ⟨t, by rw [hsplit]; simp, by simp [parts], by simp [parts, hsplit]⟩⟩
    · have hb : b = 59 := hhead b r rfl
      subst hb
      have hlen : r.length < n := by
        rw [← hn, ← hsplit]; simp; omega
      obtain ⟨h1, h2⟩ := ih r.length hlen r rfl
      refine ⟨?_, ?_⟩
      · intro p hp
        rcases List.mem_cons.mp hp with rfl | hp
        · exact hall
        · exact h1 p (by simpa using hp)
      · simp only [List.drop_succ_cons, List.drop_zero]
        rcases h2 with h2 | ⟨u, hu, h3, h4⟩
        · left
          rw [← hsplit]
          conv_lhs => rw [h2]
          simp
        · right
          refine ⟨u, hu, ?_, ?_⟩
          · rw [List.getLast?_cons, h3]; rfl
          · rw [← hsplit]
            rw [List.map_cons, List.flatten_cons, ← h4]
            simp

/-! ### The wad paths -/

theorem strLt_tri : ∀ (a b : Str), strLt a b = false → strLt b a = false → a = b := by
  intro a
  induction a with
  | nil => intro b; cases b <;> simp [strLt]
  | cons x a ih =>
    intro b
    cases b with
    | nil => simp [strLt]
    | cons y b =>
      intro h1 h2
      simp only [strLt, Bool.or_eq_false_iff, decide_eq_false_iff_not, Bool.and_eq_false_iff, beq_eq_false_iff_ne] at h1 h2
      have hxy : x = y := UInt8.le_antisymm (UInt8.not_lt.mp h2.1) (UInt8.not_lt.mp h1.1)
      subst hxy
      have := ih b (by simpa using h1.2) (by simpa using h2.2)
      rw [this]

theorem partsLt_tri : ∀ (a b : List Str), partsLt a b = false → partsLt b a = false → a = b := by
  intro a
  induction a with
  | nil => intro b; cases b <;> simp [partsLt]
  | cons x a ih =>
    intro b
    cases b with
    | nil => simp [partsLt]
    | cons y b =>
      intro h1 h2
      simp only [partsLt, Bool.or_eq_false_iff, Bool.and_eq_false_iff, beq_eq_false_iff_ne] at h1 h2
      have hxy : x = y := strLt_tri x y h1.1 h2.1
      subst hxy
      have := ih b (by simpa using h1.2) (by simpa using h2.2)
      rw [this]

theorem pathLt_tri {p q : Path} (h1 : pathLt p q = false) (h2 : pathLt q p = false) : p = q := by
  obtain ⟨a, s⟩ := p
  obtain ⟨b, t⟩ := q
  simp only [pathLt, Bool.or_eq_false_iff, Bool.and_eq_false_iff, beq_eq_false_iff_ne] at h1 h2
  have hab : a = b := by revert h1 h2; cases a <;> cases b <;> simp
  subst hab
  rw [partsLt_tri s t (by simpa using h1.2) (by simpa using h2.2)]

theorem strLt_irr : ∀ a : Str, strLt a a = false := by
  intro a
  induction a with
  | nil => rfl
  | cons x a ih => simp [strLt, ih]

theorem partsLt_irr : ∀ a : List Str, partsLt a a = false := by
  intro a
  induction a with
  | nil => rfl
  | cons x a ih => simp [partsLt, strLt_irr, ih]

theorem pathLt_irr (p : Path) : pathLt p p = false := by simp [pathLt, partsLt_irr]

theorem strLt_trans : ∀ (a b c : Str), strLt a b = true → strLt b c = true → strLt a c = true := by
  intro a
  induction a with
  | nil => intro b c; cases b <;> cases c <;> simp [strLt]
  | cons x a ih =>
    intro b c
    cases b with
    | nil => simp [strLt]
    | cons y b =>
      cases c with
      | nil => simp [strLt]
      | cons z c =>
        simp only [strLt, Bool.or_eq_true, decide_eq_true_eq, Bool.and_eq_true, beq_iff_eq]
        rintro (h1 | ⟨rfl, h1⟩) (h2 | ⟨rfl, h2⟩)
        · exact Or.inl (UInt8.lt_trans h1 h2)
        · exact Or.inl h1
        · exact Or.inl h2
        · exact Or.inr ⟨rfl, ih b c h1 h2⟩

theorem partsLt_trans : ∀ (a b c : List Str), partsLt a b = true → partsLt b c = true → partsLt a c = true := by
  intro a
  induction a with
  | nil => intro b c; cases b <;> cases c <;> simp [partsLt]
  | cons x a ih =>
    intro b c
    cases b with
    | nil => simp [partsLt]
    | cons y b =>
      cases c with
      | nil => simp [partsLt]
      | cons z c =>
        simp only [partsLt, Bool.or_eq_true, Bool.and_eq_true, beq_iff_eq]
        rintro (h1 | ⟨rfl, h1⟩) (h2 | ⟨rfl, h2⟩)
        · exact Or.inl (strLt_trans _ _ _ h1 h2)
        · exact Or.inl h1
        · exact Or.inl h2
        · exact Or.inr ⟨rfl, ih b c h1 h2⟩

theorem pathLt_trans {p q r : Path} (h1 : pathLt p q = true) (h2 : pathLt q r = true) : pathLt p r = true := by
  obtain ⟨a, s⟩ := p
  obtain ⟨b, t⟩ := q
  obtain ⟨c, u⟩ := r
  simp only [pathLt, Bool.or_eq_true, Bool.and_eq_true, beq_iff_eq] at *
  have := partsLt_trans s t u
  revert h1 h2 this
  cases a <;> cases b <;> cases c <;> simp <;> exact fun h1 h2 h => h h1 h2

theorem insert_mem {w v : WadPath} : ∀ {l : List WadPath}, l.Pairwise (fun a b => pathLt a.1 b.1 = true) →
    (v ∈ insertPath w l ↔ v ∈ l ∨ (v = w ∧ ∀ u ∈ l, u.1 ≠ w.1)) := by
  intro l
  induction l with
  | nil => intro _; simp [insertPath]
  | cons u l ih =>
    intro hp
    obtain ⟨hu, hl⟩ := List.pairwise_cons.mp hp
    rw [insertPath]
    split_ifs with h1 h2
    · have hno : ∀ x ∈ u :: l, x.1 ≠ w.1 := by
        intro x hx e
        have : pathLt w.1 x.1 = true := by
          rcases List.mem_cons.mp hx with rfl | hx
          · exact h1
          · exact pathLt_trans h1 (hu x hx)
        rw [e, pathLt_irr] at this
        exact absurd this (by simp)
      rw [List.mem_cons]
      exact ⟨fun h => h.elim (fun e => Or.inr ⟨e, hno⟩) Or.inl, fun h => h.elim Or.inr (fun e => Or.inl e.1)⟩
    · rw [List.mem_cons, ih hl, List.mem_cons]
      have hne : u.1 ≠ w.1 := by
        intro e
        rw [e, pathLt_irr] at h2
        exact absurd h2 (by simp)
      constructor
      · rintro (h | h | ⟨h, h'⟩)
        · exact Or.inl (Or.inl h)
        · exact Or.inl (Or.inr h)
        · refine Or.inr ⟨h, ?_⟩
          intro x hx
          rcases List.mem_cons.mp hx with rfl | hx
          · exact hne
          · exact h' x hx
      · rintro ((h | h) | ⟨h, h'⟩)
        · exact Or.inl h
        · exact Or.inr (Or.inl h)
        · exact Or.inr (Or.inr ⟨h, fun x hx => h' x (by simp [hx])⟩)
    · have e := pathLt_tri (by simpa using h1) (by simpa using h2)
      constructor
      · exact Or.inl
      · rintro (h | ⟨_, h⟩)
        · exact h
        · exact absurd e.symm (h u (by simp))

theorem insert_sorted {w : WadPath} : ∀ {l : List WadPath}, l.Pairwise (fun a b => pathLt a.1 b.1 = true) →
    (insertPath w l).Pairwise (fun a b => pathLt a.1 b.1 = true) := by
  intro l
  induction l with
  | nil => intro _; simp [insertPath]
  | cons u l ih =>
    intro hp
    obtain ⟨hu, hl⟩ := List.pairwise_cons.mp hp
    rw [insertPath]
    split_ifs with h1 h2
    · rw [List.pairwise_cons]
      refine ⟨?_, hp⟩
      intro x hx
      rcases List.mem_cons.mp hx with rfl | hx
      · exact h1
      · exact pathLt_trans h1 (hu x hx)
    · rw [List.pairwise_cons]
      refine ⟨?_, ih hl⟩
      intro x hx
      rcases (insert_mem hl).mp hx with hx | ⟨rfl, _⟩
      · exact hu x hx
      · exact h2
    · exact hp

theorem fold_paths : ∀ (options l : List WadPath), l.Pairwise (fun a b => pathLt a.1 b.1 = true) →
    (options.foldl (fun l w => insertPath w l) l).Pairwise (fun a b => pathLt a.1 b.1 = true) ∧
      ∀ v, v ∈ options.foldl (fun l w => insertPath w l) l ↔
        v ∈ l ∨ ((∀ u ∈ l, u.1 ≠ v.1) ∧ options.find? (fun u => decide (u.1 = v.1)) = some v) := by
  intro options
  induction options with
  | nil => intro l h; simpa using h
  | cons w options ih =>
    intro l hl
    obtain ⟨h1, h2⟩ := ih (insertPath w l) (insert_sorted hl)
    refine ⟨h1, ?_⟩
    intro v
    rw [List.foldl_cons, h2 v, insert_mem hl]
    have key : (∀ u ∈ insertPath w l, u.1 ≠ v.1) ↔ (∀ u ∈ l, u.1 ≠ v.1) ∧ (w.1 ≠ v.1) := by
      constructor
      · intro h
        have ha : ∀ u ∈ l, u.1 ≠ v.1 := fun u hu => h u ((insert_mem hl).mpr (Or.inl hu))
        refine ⟨ha, ?_⟩
        intro e
        exact h w ((insert_mem hl).mpr (Or.inr ⟨rfl, fun u hu => by rw [e]; exact ha u hu⟩)) e
      · rintro ⟨ha, hb⟩ u hu
        rcases (insert_mem hl).mp hu with hu | ⟨rfl, _⟩
        · exact ha u hu
        · exact hb
    rw [key]
    by_cases e : w.1 = v.1
    · rw [List.find?_cons_of_pos (by simpa using e)]
      constructor
      · rintro ((h | ⟨rfl, h⟩) | ⟨⟨_, h⟩, _⟩)
        · exact Or.inl h
        · exact Or.inr ⟨h, rfl⟩
        · exact absurd e h
      · rintro (h | ⟨h, h'⟩)
        · exact Or.inl (Or.inl h)
        · simp only [Option.some.injEq] at h'
          exact Or.inl (Or.inr ⟨h'.symm, by rw [e]; exact h⟩)
    · rw [List.find?_cons_of_neg (by simpa using e)]
      constructor
      · rintro ((h | ⟨rfl, h⟩) | ⟨⟨h, _⟩, h'⟩)
        · exact Or.inl h
        · exact absurd rfl e
        · exact Or.inr ⟨h, h'⟩
      · rintro (h | ⟨h, h'⟩)
        · exact Or.inl (Or.inl h)
        · exact Or.inr ⟨⟨h, e⟩, h'⟩

/-- The wad paths are those of the options, each once; of two options with the same path the first one counts. -/
theorem wad_paths (options : List WadPath) (v : WadPath) :
    v ∈ wadPaths options ↔ options.find? (fun u => decide (u.1 = v.1)) = some v := by
  have := (fold_paths options [] (by simp)).2 v
  simpa [wadPaths] using this

/-- They are searched in the order of their names. -/
theorem wad_paths_sorted (options : List WadPath) : (wadPaths options).Pairwise (fun a b => pathLt a.1 b.1 = true) :=
  (fold_paths options [] (by simp)).1

/-- The order of the options makes no difference, as long as no path is given twice. -/
theorem wad_paths_order {l m : List WadPath} (h : l.Perm m) (hn : (l.map Prod.fst).Nodup) : wadPaths l = wadPaths m := by
  have uniq : ∀ (l : List WadPath), (l.map Prod.fst).Nodup → ∀ v, l.find? (fun u => decide (u.1 = v.1)) = some v ↔ v ∈ l := by
    intro l hn v
    constructor
    · exact List.mem_of_find?_eq_some
    · intro hv
      induction l with
      | nil => simp at hv
      | cons w l ih =>
        simp only [List.map_cons, List.nodup_cons, List.mem_map, not_exists, not_and] at hn
        by_cases e : w.1 = v.1
        · rw [List.find?_cons_of_pos (by simpa using e)]
          rcases List.mem_cons.mp hv with rfl | hv
          · rfl
          · exact absurd e.symm (hn.1 v hv)
        · rw [List.find?_cons_of_neg (by simpa using e)]
          rcases List.mem_cons.mp hv with rfl | hv
          · exact absurd rfl e
          · exact ih hn.2 hv
  have hmem : ∀ v, v ∈ wadPaths l ↔ v ∈ wadPaths m := by
    intro v
    rw [wad_paths, wad_paths, uniq l hn, uniq m ((h.map Prod.fst).nodup_iff.mp hn), h.mem_iff]
  have hnod : ∀ o, (wadPaths o).Nodup := fun o =>
    (wad_paths_sorted o).imp (fun {a b} hab e => by rw [e, pathLt_irr] at hab; exact absurd hab (by simp))
  have hperm : (wadPaths l).Perm (wadPaths m) := (List.perm_ext_iff_of_nodup (hnod l) (hnod m)).mpr hmem
  refine hperm.eq_of_pairwise (le := fun a b => pathLt a.1 b.1 = true) ?_ (wad_paths_sorted l) (wad_paths_sorted m)
  intro a b _ _ h1 h2
  have := pathLt_trans h1 h2
  rw [pathLt_irr] at this
  exact absurd this (by simp)

/-! ### Cases -/

/-- A path of one component per part. -/
def toPath1 (s : Str) : Path := ⟨false, if s = [] then [] else [s]⟩

/-- A wad without lumps. -/
def wad0 : List Byte := [0x57, 0x41, 0x44, 0x32, 0, 0, 0, 0, 12, 0, 0, 0]

/-- The wad `x.wad` is in the directory `b` and another one in the working directory. -/
def disk2 : Disk := fun p =>
  if p = path ["a"] then .dir 1
  else if p = path ["b"] then .dir 2
  else if p = path ["b", "x.wad"] then .file 3 wad0
  else if p = path ["x.wad"] then .file 4 wad0
  else if p = path ["b", "y.wad"] then .file 5 wad0
  else if p = path ["m.wad"] then .file 6 wad0
  else .missing

/-- `-xwadpath a -wadpath b`. -/
def paths2 : List WadPath := wadPaths [(path ["b"], false), (path ["a"], true)]

theorem wad0_sound : WadSound wad0 := by
  refine ⟨by decide, by decide +kernel, ?_⟩
  unfold DirectorySound
  have : u32At wad0 4 = 0 := by decide +kernel
  rw [this]
  intro i hi
  omega

/-- A wad below a wad path is registered if nothing has its name below the wad paths before. -/
def FoundBelow : Prop := ∀ (d : Disk) (before after : List WadPath) (w : WadPath) (p : Path) (st st' : State) (r : Option Ref),
  p.abs = false → p.isEmpty = false → (∀ v ∈ before, d (v.1.join p) = .missing) → IsArc d (w.1.join p) →
    loadTexturePath d (before ++ w :: after) st p = .ok (st', r) → Registered d st' (w.1.join p)

/-- The wad of the working directory is taken although the wad is below a wad path, if this is not the first one. -/
theorem second_path_unseen : ¬ FoundBelow := by
  intro h
  have hrun : loadTexturePath disk2 paths2 ⟨[], []⟩ (path ["x.wad"]) =
      .ok (⟨[], [⟨path ["x.wad"], true, ⟨[], ⟨wad0, 12, false⟩⟩⟩]⟩, some (.arc (path ["x.wad"]))) := by decide +kernel
  have hp : paths2 = [(path ["a"], true)] ++ (path ["b"], false) :: [] := by decide +kernel
  rw [hp] at hrun
  obtain ⟨a, ha, hid⟩ := h disk2 [(path ["a"], true)] [] (path ["b"], false) (path ["x.wad"]) _ _ _ (by decide +kernel)
    (by decide +kernel) (by decide +kernel) ⟨3, wad0, by decide +kernel, Or.inr ⟨by
      intro hs
      have := (iequals_sameText _ _).mpr hs
      revert this
      decide +kernel, (iequals_sameText _ _).mp (by decide +kernel), wad0_sound⟩⟩ hrun
  simp only [List.mem_singleton] at ha
  subst ha
  revert hid
  decide +kernel

/-- A wad of the working directory is embedded in the map: no wad path told otherwise for it. -/
def LocalEmbedded : Prop := ∀ (d : Disk) (ws : List WadPath) (p : Path) (st' : State) (r : Option Ref),
  p.abs = false → loadTexturePath d ws ⟨[], []⟩ p = .ok (st', r) → ∀ a ∈ st'.arcs, a.path = p → a.external = false

/-- The wad of the working directory is taken for one of the first wad path, whose option says not to embed it. -/
theorem local_not_embedded : ¬ LocalEmbedded := by
  intro h
  have hrun : loadTexturePath disk2 paths2 ⟨[], []⟩ (path ["x.wad"]) =
      .ok (⟨[], [⟨path ["x.wad"], true, ⟨[], ⟨wad0, 12, false⟩⟩⟩]⟩, some (.arc (path ["x.wad"]))) := by decide +kernel
  have := h disk2 paths2 (path ["x.wad"]) _ _ (by decide +kernel) hrun _ (List.mem_singleton.mpr rfl) rfl
  simp at this

/-- If no wad of the list is there, the wad with the name of the map is registered if it would be without the list. -/
def DefaultTried : Prop := ∀ (d : Disk) (toPath : Str → Path) (ws : List WadPath) (text : Str) (deflt : Path) (st0 st' : State),
  (∀ s ∈ parts text, ∀ c, At d ws (toPath s) c → ¬ IsArc d c) → ensure d toPath ws [] [] deflt ⟨[], []⟩ = .ok st0 →
    Registered d st0 deflt → ensure d toPath ws [] text deflt ⟨[], []⟩ = .ok st' → Registered d st' deflt

/-- A semicolon in front: the wad path itself is registered as a directory, counts as a wad, and the wad with the name of
the map is not tried. -/
theorem empty_part_hides_default : ¬ DefaultTried := by
  intro h
  have hrun : ensure disk2 toPath1 [(path ["b"], false)] [] [59] (path ["m.wad"]) ⟨[], []⟩ =
      .ok ⟨[⟨path ["b"], false⟩], []⟩ := by decide +kernel
  have h0 : ensure disk2 toPath1 [(path ["b"], false)] [] [] (path ["m.wad"]) ⟨[], []⟩ =
      .ok ⟨[], [⟨path ["m.wad"], false, ⟨[], ⟨wad0, 12, false⟩⟩⟩]⟩ := by decide +kernel
  suffices hno : ∀ s ∈ parts [59], ∀ c, At disk2 [(path ["b"], false)] (toPath1 s) c → ¬ IsArc disk2 c by
    obtain ⟨a, ha, _⟩ := h disk2 toPath1 [(path ["b"], false)] [59] (path ["m.wad"]) _ _ hno h0
      ⟨_, List.mem_singleton.mpr rfl, rfl⟩ hrun
    simp at ha
  · intro s hs c hat hc
    have hs' : s = [] := by
      have : parts [59] = [[]] := by decide +kernel
      rw [this] at hs
      simpa using hs
    subst hs'
    obtain ⟨id, bytes, hd, hx⟩ := hc
    have hcase : c = path ["b"] ∨ c = path [] := by
      cases hat with
      | absolute ha => exact Or.inr rfl
      | below before w after ha hws hb =>
        left
        have : w = (path ["b"], false) := by
          have hm : w ∈ [(path ["b"], false)] := by rw [hws]; simp
          simpa using hm
        subst this
        decide +kernel
      | beside before w after ha hws hb hm =>
        left
        have : w = (path ["b"], false) := by
          have hm : w ∈ [(path ["b"], false)] := by rw [hws]; simp
          simpa using hm
        subst this
        decide +kernel
      | here => exact Or.inr rfl
    rcases hcase with rfl | rfl
    · have : disk2 (path ["b"]) = .dir 2 := by decide +kernel
      rw [this] at hd; cases hd
    · have : disk2 (path []) = .missing := by decide +kernel
      rw [this] at hd; cases hd

theorem disk2_y : IsArc disk2 (path ["b", "y.wad"]) := by
  refine ⟨5, wad0, by decide +kernel, Or.inr ⟨?_, (iequals_sameText _ _).mp (by decide +kernel), wad0_sound⟩⟩
  intro hs
  have := (iequals_sameText _ _).mpr hs
  revert this
  decide +kernel

/-- Two wads in the list, of which one is there, below the second wad path. -/
example : ∃ st', ensure disk2 toPath1 paths2 [] (str "z.wad;y.wad") (path ["m.wad"]) ⟨[], []⟩ = .ok st' ∧
    str "y.wad" ∈ parts (str "z.wad;y.wad") ∧ At disk2 paths2 (toPath1 (str "y.wad")) (path ["b", "y.wad"]) ∧
    IsArc disk2 (path ["b", "y.wad"]) ∧ Registered disk2 st' (path ["b", "y.wad"]) := by
  have hrun : ensure disk2 toPath1 paths2 [] (str "z.wad;y.wad") (path ["m.wad"]) ⟨[], []⟩ =
      .ok ⟨[], [⟨path ["b", "y.wad"], false, ⟨[], ⟨wad0, 12, false⟩⟩⟩]⟩ := by decide +kernel
  have hp : str "y.wad" ∈ parts (str "z.wad;y.wad") := by decide +kernel
  have hat : At disk2 paths2 (toPath1 (str "y.wad")) (path ["b", "y.wad"]) := by
    have := At.below (d := disk2) (ws := paths2) (p := toPath1 (str "y.wad")) [(path ["a"], true)] (path ["b"], false) []
      (by decide +kernel) (by decide +kernel) (by
        intro v hv
        simp only [List.mem_singleton] at hv
        subst hv
        exact ⟨by decide +kernel, by decide +kernel⟩)
    have he : (path ["b"]).join (toPath1 (str "y.wad")) = path ["b", "y.wad"] := by decide +kernel
    rw [he] at this
    exact this
  exact ⟨_, hrun, hp, hat, disk2_y, listed_registered hrun (Or.inr ⟨rfl, rfl⟩) hp hat disk2_y (by decide +kernel)⟩

/-- `-wadpath b -xwadpath a -wadpath a`: `a` comes first, and its wads are not embedded. -/
example : wadPaths [(path ["b"], false), (path ["a"], true), (path ["a"], false)] =
    [(path ["a"], true), (path ["b"], false)] := by decide +kernel

example : parts (str "a;;b;") = [str "a", [], str "b"] := by decide +kernel

end Verif.Archive.Wads
