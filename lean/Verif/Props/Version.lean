/-
C145: the version number identifies the program.
-/
import Verif.Model.Version
import Mathlib.Data.List.Basic
import Mathlib.Tactic.Ring
import Mathlib.Tactic.SplitIfs

namespace Soapy.Props

open Soapy.Version

/-- What `git describe --tags --dirty --always --long` prints (manual page of git-describe) of the commit `hex`, `n` commits after `tag`. -/
def describeText (tag : List Char) (n : ℕ) (hex : List Char) (dirty : Bool) : List Char := tag ++ "-".toList ++ decimal n ++ "-g".toList ++ hex ++ if dirty then "-dirty".toList else []

/-- The name of a commit. -/
def Hex (s : List Char) : Prop := s ≠ [] ∧ ∀ c ∈ s, c ∈ "0123456789abcdef".toList

private theorem digitChar (d : ℕ) (h : d < 10) : (Char.ofNat (48 + d)).toNat = 48 + d := by
  rcases d with _ | _ | _ | _ | _ | _ | _ | _ | _ | _ | d <;> first | rfl | omega

theorem decimal_digits (n : ℕ) : decimal n ≠ [] ∧ ∀ c ∈ decimal n, isDigit c = true := by
  induction n using Nat.strong_induction_on with
  | _ n ih =>
    unfold decimal
    have dig : ∀ d, d < 10 → isDigit (Char.ofNat (48 + d)) = true := by
      intro d hd
      simp only [isDigit, digitChar d hd, Bool.and_eq_true, decide_eq_true_eq]
      omega
    split_ifs with h
    · refine ⟨by simp, fun c hc => ?_⟩
      rw [List.mem_singleton.mp hc]
      exact dig n h
    · refine ⟨by simp, fun c hc => ?_⟩
      rcases List.mem_append.mp hc with hc | hc
      · exact (ih (n / 10) (by omega)).2 c hc
      · rw [List.mem_singleton.mp hc]
        exact dig _ (by omega)

theorem natOf_decimal (n : ℕ) : natOf (decimal n) = n := by
  induction n using Nat.strong_induction_on with
  | _ n ih =>
    unfold decimal
    split_ifs with h
    · simp only [natOf, List.foldl_cons, List.foldl_nil, digitChar n h]
      omega
    · have := ih (n / 10) (by omega)
      unfold natOf at this ⊢
      rw [List.foldl_append, this]
      simp only [List.foldl_cons, List.foldl_nil, digitChar (n % 10) (by omega)]
      omega

private theorem splitLast_append (c : Char) (a b : List Char) (h : c ∉ b) : splitLast c (a ++ c :: b) = some (a, b) := by
  have hr : (a ++ c :: b).reverse = b.reverse ++ c :: a.reverse := by simp
  have hb : ∀ x ∈ b.reverse, (x != c) = true := by
    intro x hx
    simp only [bne_iff_ne, ne_eq]
    rintro rfl
    exact h (List.mem_reverse.mp hx)
  unfold splitLast
  rw [hr, List.dropWhile_append_of_pos hb, List.takeWhile_append_of_pos hb]
  simp

private theorem dropPrefix_append (p s : List Char) : dropPrefix p (p ++ s) = some s := by
  induction p with
  | nil => rfl
  | cons c p ih => simp [dropPrefix, ih]

private theorem dropPrefix_some (p s r : List Char) : dropPrefix p s = some r → s = p ++ r := by
  induction p generalizing s with
  | nil => intro h; simpa [dropPrefix] using h
  | cons c p ih =>
    intro h
    cases s with
    | nil => simp [dropPrefix] at h
    | cons d s =>
      simp only [dropPrefix] at h
      split_ifs at h with e
      rw [e, ih s h]
      rfl

private theorem Hex.isHex {s : List Char} (h : Hex s) : ∀ c ∈ s, Version.isHex c = true := by
  have : ∀ c ∈ "0123456789abcdef".toList, Version.isHex c = true := by decide
  exact fun c hc => this c (h.2 c hc)

private theorem isHex_ne (c : Char) (h : isHex c = true) : c ≠ '-' ∧ c ≠ 'y' ∧ c ≠ 'u' ∧ c ≠ '+' ∧ c ≠ '.' := by
  refine ⟨?_, ?_, ?_, ?_, ?_⟩ <;> rintro rfl <;> revert h <;> decide

private theorem isDigit_hex (c : Char) (h : isDigit c = true) : isHex c = true := by simp [isHex, h]

/-- No output of git on a clean tree ends like that on a changed one. -/
private theorem stripDirty_clean (s hex : List Char) (h : Hex hex) : stripDirty (s ++ hex) = (false, s ++ hex) := by
  unfold stripDirty
  cases e : dropPrefix "-dirty".toList.reverse (s ++ hex).reverse with
  | none => rfl
  | some r =>
    exfalso
    have h1 := dropPrefix_some _ _ _ e
    have hx := h.isHex
    obtain ⟨hne, -⟩ := h
    rw [List.reverse_append] at h1
    cases hr : hex.reverse with
    | nil => exact hne (by simpa using hr)
    | cons c rest =>
      rw [hr] at h1
      have hc : c = 'y' := by
        have := congrArg List.head? h1
        simpa using this
      have : c ∈ hex := by
        have : c ∈ hex.reverse := by rw [hr]; simp
        exact List.mem_reverse.mp this
      exact (isHex_ne c (hx c this)).2.1 hc

private theorem stripDirty_dirty (s : List Char) : stripDirty (s ++ "-dirty".toList) = (true, s) := by
  unfold stripDirty
  rw [List.reverse_append, dropPrefix_append]
  simp

/-- **C145 (output of git).**  Tag, number of commits since, name of the commit and whether there were changes are read back from what `git describe` prints, whatever hyphens and digits the tag has. -/
theorem C145_describe (tagPrefix t : List Char) (hne : tagPrefix ++ t ≠ []) (n : ℕ) (hex full : List Char) (hh : Hex hex) (dirty : Bool) (commits : ℕ) :
    pieces tagPrefix (describeText (tagPrefix ++ t) n hex dirty) full commits = ⟨false, some t, n, hex, dirty⟩ := by
  have hs : stripDirty (describeText (tagPrefix ++ t) n hex dirty) = (dirty, (tagPrefix ++ t) ++ '-' :: decimal n ++ '-' :: 'g' :: hex) := by
    cases dirty with
    | true =>
      unfold describeText
      simp only [if_true]
      rw [stripDirty_dirty]
      simp
    | false =>
      unfold describeText
      simp only [Bool.false_eq_true, if_false, List.append_nil]
      rw [stripDirty_clean _ _ hh]
      simp
  have hd := decimal_digits n
  have hm : matchDescribe ((tagPrefix ++ t) ++ '-' :: decimal n ++ '-' :: 'g' :: hex) = some (tagPrefix ++ t, decimal n, hex) := by
    unfold matchDescribe
    rw [splitLast_append '-' _ ('g' :: hex) (by
      simp only [List.mem_cons, not_or]
      exact ⟨by decide, fun h => (isHex_ne _ (hh.isHex _ h)).1 rfl⟩)]
    dsimp only
    rw [splitLast_append '-' _ (decimal n) (fun h => (isHex_ne _ (isDigit_hex _ (hd.2 _ h))).1 rfl)]
    show (if tagPrefix ++ t ≠ [] ∧ decimal n ≠ [] ∧ (decimal n).all isDigit = true ∧ hex ≠ [] ∧ hex.all isHex = true then some (tagPrefix ++ t, decimal n, hex) else none) = _
    rw [if_pos ⟨hne, hd.1, List.all_eq_true.mpr hd.2, hh.1, List.all_eq_true.mpr hh.isHex⟩]
  unfold pieces
  rw [hs]
  dsimp only
  rw [if_pos (by simp), hm]
  dsimp only
  rw [dropPrefix_append]
  dsimp only
  rw [natOf_decimal]

example : Hex "1b102fe".toList := by
  refine ⟨by decide, ?_⟩
  decide

/-- **C145 (no tags).**  Without tags git prints the name of the commit; the number of all commits takes the place of the distance. -/
theorem C145_untagged (tagPrefix hex full : List Char) (hh : Hex hex) (dirty : Bool) (commits : ℕ) :
    pieces tagPrefix (hex ++ if dirty then "-dirty".toList else []) full commits = ⟨false, none, commits, full.take 7, dirty⟩ := by
  have hm : '-' ∉ hex := fun h => (isHex_ne _ (hh.isHex _ h)).1 rfl
  unfold pieces
  cases dirty with
  | true =>
    simp only [if_true]
    rw [stripDirty_dirty]
    dsimp only
    rw [if_neg hm]
  | false =>
    simp only [Bool.false_eq_true, if_false, List.append_nil]
    have := stripDirty_clean [] hex hh
    rw [List.nil_append] at this
    rw [this]
    dsimp only
    rw [if_neg hm]

/-- What the version number of a checkout can be about: a tag without a plus sign, or none. -/
def Known (p : Pieces) : Prop := p.error = false ∧ Hex p.short ∧ ∀ t, p.closestTag = some t → t ≠ [] ∧ '+' ∉ t

private theorem cut_unique {α : Type} (P : α → Bool) (a b : List α) (x y : α) (a' b' : List α) (ha : ∀ c ∈ a, P c = true) (hb : ∀ c ∈ b, P c = true) (hx : P x = false) (hy : P y = false) (h : a ++ x :: a' = b ++ y :: b') :
    a = b ∧ x = y ∧ a' = b' := by
  induction a generalizing b with
  | nil =>
    cases b with
    | nil => simpa using h
    | cons c b =>
      simp only [List.nil_append, List.cons_append, List.cons.injEq] at h
      have := hb c (by simp)
      rw [← h.1, hx] at this
      cases this
  | cons d a ih =>
    cases b with
    | nil =>
      simp only [List.nil_append, List.cons_append, List.cons.injEq] at h
      have := ha d (by simp)
      rw [h.1, hy] at this
      cases this
    | cons c b =>
      simp only [List.cons_append, List.cons.injEq] at h
      obtain ⟨h1, h2, h3⟩ := ih b (fun c hc => ha c (by simp [hc])) (fun c hc => hb c (by simp [hc])) h.2
      exact ⟨by rw [h.1, h1], h2, h3⟩

private theorem local_inj (p q : Pieces) (hp : Hex p.short) (hq : Hex q.short) (h : local' p = local' q) : p.distance = q.distance ∧ p.short = q.short ∧ p.dirty = q.dirty := by
  have e : ∀ r : Pieces, local' r = decimal r.distance ++ '.' :: ('g' :: (r.short ++ if r.dirty then ".dirty".toList else [])) := by
    intro r; unfold local'; simp
  rw [e, e] at h
  obtain ⟨h1, -, h2⟩ := cut_unique isDigit _ _ _ _ _ _ (decimal_digits p.distance).2 (decimal_digits q.distance).2 (by decide) (by decide) h
  have hd : p.distance = q.distance := by rw [← natOf_decimal p.distance, h1, natOf_decimal]
  simp only [List.cons.injEq, true_and] at h2
  have dirtyEq : ".dirty".toList = '.' :: "dirty".toList := rfl
  refine ⟨hd, ?_⟩
  cases hpd : p.dirty <;> cases hqd : q.dirty <;> simp only [hpd, hqd, Bool.false_eq_true, if_false, if_true, List.append_nil] at h2
  · exact ⟨h2, rfl⟩
  · exfalso
    have : '.' ∈ p.short := by rw [h2]; simp [dirtyEq]
    exact (isHex_ne _ (hp.isHex _ this)).2.2.2.2 rfl
  · exfalso
    have : '.' ∈ q.short := by rw [← h2]; simp [dirtyEq]
    exact (isHex_ne _ (hq.isHex _ this)).2.2.2.2 rfl
  · rw [dirtyEq] at h2
    obtain ⟨h3, -, -⟩ := cut_unique isHex _ _ _ _ _ _ hp.isHex hq.isHex (by decide) (by decide) h2
    exact ⟨h3, rfl⟩

/-- Whether the checkout is just a tag. -/
def AtTag (p : Pieces) : Prop := (∃ t, p.closestTag = some t) ∧ p.distance = 0 ∧ p.dirty = false

private theorem render_at (p : Pieces) (h : Known p) (t : List Char) (ht : p.closestTag = some t) (ha : AtTag p) : render p = t := by
  obtain ⟨he, _, hk⟩ := h
  obtain ⟨hne, _⟩ := hk t ht
  cases t with
  | nil => exact absurd rfl hne
  | cons c t => simp [render, he, renderPep440, ht, ha.2.1, ha.2.2]

private theorem render_after (p : Pieces) (h : Known p) (t : List Char) (ht : p.closestTag = some t) (ha : ¬ AtTag p) : render p = t ++ '+' :: local' p := by
  obtain ⟨he, _, hk⟩ := h
  obtain ⟨hne, hplus⟩ := hk t ht
  have hd : p.distance ≠ 0 ∨ p.dirty = true := by
    by_contra hcon
    simp only [not_or, Decidable.not_not, Bool.not_eq_true] at hcon
    exact ha ⟨⟨t, ht⟩, hcon⟩
  cases t with
  | nil => exact absurd rfl hne
  | cons c t =>
    simp only [render, he, renderPep440, ht, Bool.false_eq_true, if_false, if_pos hd, plusOrDot, hplus]
    simp

private theorem render_none (p : Pieces) (h : Known p) (ht : p.closestTag = none) : render p = ['0'] ++ '+' :: ("untagged.".toList ++ local' p) := by
  simp only [render, h.1, renderPep440, ht]
  rfl

/-- **C145 (identification).**  Two checkouts with the same version number have the same tag, and unless both are the tag itself without changes, the same number of commits since, the same commit and both or neither have changes. -/
theorem C145_identifies (p q : Pieces) (hp : Known p) (hq : Known q) (h : render p = render q) :
    p.closestTag = q.closestTag ∧ (AtTag p ↔ AtTag q) ∧ (¬ AtTag p → p.distance = q.distance ∧ p.short = q.short ∧ p.dirty = q.dirty) := by
  have np : ∀ t : List Char, '+' ∉ t → ∀ c ∈ t, (c != '+') = true := by
    intro t ht c hc
    simp only [bne_iff_ne, ne_eq]
    rintro rfl
    exact ht hc
  have notU : ∀ r : Pieces, ∀ x : List Char, local' r ≠ "untagged.".toList ++ x := by
    intro r x hx
    have hd := decimal_digits r.distance
    unfold local' at hx
    cases e : decimal r.distance with
    | nil => exact hd.1 e
    | cons c l =>
      rw [e] at hx
      have : c = 'u' := by
        have := congrArg List.head? hx
        simpa using this
      have h2 := hd.2 c (by rw [e]; simp)
      rw [this] at h2
      exact absurd h2 (by decide)
  have notNone : ∀ r : Pieces, r.closestTag = none → ¬ AtTag r := by
    rintro r hr ⟨⟨t, ht⟩, _⟩
    rw [hr] at ht
    cases ht
  cases hpt : p.closestTag with
  | none =>
    rw [render_none p hp hpt] at h
    cases hqt : q.closestTag with
    | none =>
      rw [render_none q hq hqt] at h
      have h' : local' p = local' q := by simpa using h
      exact ⟨rfl, ⟨fun a => absurd a (notNone p hpt), fun a => absurd a (notNone q hqt)⟩, fun _ => local_inj p q hp.2.1 hq.2.1 h'⟩
    | some t =>
      exfalso
      have ht := (hq.2.2 t hqt).2
      by_cases ha : AtTag q
      · rw [render_at q hq t hqt ha] at h
        exact ht (by rw [← h]; simp)
      · rw [render_after q hq t hqt ha] at h
        obtain ⟨-, -, h3⟩ := cut_unique (fun c => c != '+') _ _ _ _ _ _ (by decide) (np t ht) (by decide) (by decide) h
        exact notU q _ h3.symm
  | some t =>
    have ht := (hp.2.2 t hpt).2
    cases hqt : q.closestTag with
    | none =>
      exfalso
      rw [render_none q hq hqt] at h
      by_cases ha : AtTag p
      · rw [render_at p hp t hpt ha] at h
        exact ht (by rw [h]; simp)
      · rw [render_after p hp t hpt ha] at h
        obtain ⟨-, -, h3⟩ := cut_unique (fun c => c != '+') _ _ _ _ _ _ (np t ht) (by decide) (by decide) (by decide) h
        exact notU p _ h3
    | some u =>
      have hu := (hq.2.2 u hqt).2
      by_cases ha : AtTag p
      · rw [render_at p hp t hpt ha] at h
        by_cases hb : AtTag q
        · rw [render_at q hq u hqt hb] at h
          exact ⟨by rw [h], ⟨fun _ => hb, fun _ => ha⟩, fun hn => absurd ha hn⟩
        · rw [render_after q hq u hqt hb] at h
          exact absurd (show '+' ∈ t by rw [h]; simp) ht
      · rw [render_after p hp t hpt ha] at h
        by_cases hb : AtTag q
        · rw [render_at q hq u hqt hb] at h
          exact absurd (show '+' ∈ u by rw [← h]; simp) hu
        · rw [render_after q hq u hqt hb] at h
          obtain ⟨h1, -, h3⟩ := cut_unique (fun c => c != '+') _ _ _ _ _ _ (np t ht) (np u hu) (by decide) (by decide) h
          exact ⟨by rw [h1], ⟨fun a => absurd a ha, fun a => absurd a hb⟩, fun _ => local_inj p q hp.2.1 hq.2.1 h3⟩

/-- **C145 (release).**  The version number is that of the tag exactly if the checkout is the tag, without changes. -/
theorem C145_release (p : Pieces) (hp : Known p) (t : List Char) (ht : p.closestTag = some t) : render p = t ↔ p.distance = 0 ∧ p.dirty = false := by
  constructor
  · intro h
    by_contra hn
    rw [render_after p hp t ht (fun ha => hn ha.2)] at h
    exact (hp.2.2 t ht).2 (by rw [← h]; simp)
  · intro h
    exact render_at p hp t ht ⟨⟨t, ht⟩, h⟩

/-- **C145 (whole).**  In a checkout the version number that soapy reports is `TAG[+DISTANCE.gHEX[.dirty]]`. -/
theorem C145_checkout (t : List Char) (ht : t ≠ []) (hplus : '+' ∉ t) (n : ℕ) (hex full : List Char) (hh : Hex hex) (dirty : Bool) (commits : ℕ) (dirs : List (List Char)) :
    version none (some ⟨describeText ('v' :: t) n hex dirty, full, commits⟩) dirs =
      t ++ if n = 0 ∧ dirty = false then [] else "+".toList ++ decimal n ++ ".g".toList ++ hex ++ if dirty then ".dirty".toList else [] := by
  have hpc := C145_describe ['v'] t (by simp) n hex full hh dirty commits
  have hk : Known ⟨false, some t, n, hex, dirty⟩ := ⟨rfl, hh, fun u hu => by cases hu; exact ⟨ht, hplus⟩⟩
  have : version none (some ⟨describeText ('v' :: t) n hex dirty, full, commits⟩) dirs = render ⟨false, some t, n, hex, dirty⟩ := by
    show render (pieces ['v'] (describeText ('v' :: t) n hex dirty) full commits) = _
    rw [show 'v' :: t = ['v'] ++ t from rfl, hpc]
  rw [this]
  split_ifs with h
  · rw [render_at _ hk t rfl ⟨⟨t, rfl⟩, h⟩, List.append_nil]
  · rw [render_after _ hk t rfl (fun ha => h ha.2)]
    unfold local'
    simp only [*]
    simp
  · rw [render_after _ hk t rfl (fun ha => h ha.2)]
    unfold local'
    simp only [*]
    simp

/-- Two commits after 0.14-beta, with changes. -/
example : version none (some ⟨describeText "v0.14-beta".toList 2 "1b102fe".toList true, "1b102fe5".toList, 700⟩) [] = "0.14-beta+2.g1b102fe.dirty".toList := by
  rw [show "v0.14-beta".toList = 'v' :: "0.14-beta".toList from rfl, C145_checkout _ (by decide) (by decide) _ _ _ ⟨by decide, by decide⟩]
  decide +kernel

/-- **C145 (archive).**  An archive made of a commit with a single version tag, whatever branches point to it, reports the version of that tag: that of a checkout of the tag without changes, wherever the archive is unpacked. -/
theorem C145_archive (refs : List (List Char)) (t hex full : List Char) (hh : Hex hex) (hplus : '+' ∉ t) (c : Char) (u : List Char) (htc : t = c :: u) (hc : isDigit c = true)
    (hone : refs.filterMap (dropPrefix "tag: ".toList) = ['v' :: t]) (git : Option Git) (dirs dirs' : List (List Char)) (commits : ℕ) :
    version (some refs) git dirs = t ∧ version none (some ⟨describeText ('v' :: t) 0 hex false, full, commits⟩) dirs' = t := by
  constructor
  · subst htc
    simp only [version, fromKeywords, hone]
    simp [dropPrefix, hc]
  · rw [C145_checkout t (by rw [htc]; simp) hplus 0 hex full hh false]
    simp

example : ["HEAD -> master".toList, "origin/2024".toList, "tag: v0.14".toList].filterMap (dropPrefix "tag: ".toList) = ["v0.14".toList] := by decide +kernel

/-- **C145 (unpacked archive without names).**  Without git the name of the directory counts, or of one of the two above; otherwise the version is unknown. -/
theorem C145_directory (d v : List Char) (pre post : List (List Char)) (h3 : pre.length < 3) (hpre : ∀ x ∈ pre, dropPrefix "soapy-".toList x = none) (hd : d = "soapy-".toList ++ v) :
    version none none (pre ++ d :: post) = v := by
  have h1 : dropPrefix "soapy-".toList d = some v := by rw [hd, dropPrefix_append]
  have h2 : fromParent "soapy-".toList (pre ++ d :: post) = some v := by
    unfold fromParent
    rw [List.take_append, List.take_of_length_le (by omega), List.findSome?_append]
    rw [List.findSome?_eq_none_iff.mpr hpre]
    have : 3 - pre.length = (2 - pre.length) + 1 := by omega
    rw [this, List.take_succ_cons, List.findSome?_cons, h1]
    rfl
  show (fromParent "soapy-".toList (pre ++ d :: post)).getD _ = v
  rw [h2]
  rfl

example : version none none ["lib".toList, "soapy-0.14".toList] = "0.14".toList := C145_directory _ "0.14".toList ["lib".toList] [] (by decide) (by decide) rfl

/-- **C145 (no plus signs).**  A tag with a plus sign can be taken for another commit: this is why `Known` excludes it. -/
theorem C145_plus : render ⟨false, some "1+2.gab".toList, 0, "cd".toList, false⟩ = render ⟨false, some "1".toList, 2, "ab".toList, false⟩ := by decide +kernel

end Soapy.Props
