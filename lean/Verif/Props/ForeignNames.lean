import Verif.Props.ForeignFiles
import Verif.Props.FitsModes

/-
Property C154: the HDUs of another program's file by name.
-/

namespace Astro

open Spec Header Reader

/-- A file consists of its HDUs in one way only. -/
theorem chain_only {F : FloatText} {content : Str} : ∀ {es es' : List Entry} {a p q : Nat}, Chain (Complete F content) a es p → Chain (Complete F content) a es' q →
    content.length ≤ p → content.length ≤ q → es = es'
  | [], [], _, _, _, _, _, _, _ => rfl
  | [], e :: _, _, _, _, h, ⟨h1, h2, _⟩, hp, _ => by cases h; have := h2.start; omega
  | e :: es, [], a, p, q, ⟨h1, h2, _⟩, h', _, hq => by cases h'; have := h2.start; omega
  | e :: es, e' :: es', a, p, q, ⟨h1, h2, h3⟩, ⟨g1, g2, g3⟩, hp, hq => by
    have hl := h1.trans g1.symm
    obtain ⟨f, s, k1⟩ := h2.header
    obtain ⟨g, s', k2⟩ := g2.header
    rw [← hl] at k2
    have hh := readHeader_same k1 k2
    obtain ⟨a1, a2, _⟩ := placed_unique h2.toPlaced g2.toPlaced hl hh
    obtain ⟨u, b1, b2⟩ := h2.built
    obtain ⟨v, c1, c2⟩ := g2.built
    rw [← hh, b1] at c1
    rw [← a1, ← a2, ← (Prod.mk.inj c1).1, b2] at c2
    have he : e = e' := complete_unique h2 g2 hl hh (Except.ok.inj c2)
    subst he
    rw [chain_only h3 g3 hp hq]

theorem filedAs_fun (F : FloatText) {u : ForeignHdu} {a b : Str} (h : FiledAs u a) (h' : FiledAs u b) : a = b := by
  have no : ∀ {x}, Absent u.cards b!"XTENSION" → ¬ SaysString u.cards b!"XTENSION" x := fun ha ⟨_, ⟨_, _, _, _, g, _⟩, _⟩ => lastWith_not_absent g ha
  cases h with
  | primary h => cases h' with
    | primary _ => rfl
    | extension _ h' => exact absurd h' (no h)
  | extension _ h => cases h' with
    | primary h' => exact absurd h (no h')
    | extension _ h' => exact says_string_fun h' (says_string (F := F) h)

/-- The reader that opened a file of another program. -/
theorem laid_entries {F : FloatText} {content : Str} {us : List ForeignHdu} (h : Laid us content) (hs : ∀ u ∈ us, Supported F u)
    (h36 : ∀ u ∈ us, ¬ 36 ∣ u.cards.length) (hd : ∀ u ∈ us.dropLast, u.data = [] ∨ ¬ 2880 ∣ u.data.length) (hb : content.length + 5760 < 2 ^ 63) {es : List Entry}
    (he : FileOf F content es) : List.Forall₂ (fun u (e : Entry) => Shows F u e.hdu ∧ FiledAs u e.name) us es := by
  obtain ⟨q, he, hq⟩ := he
  rcases List.eq_nil_or_concat us with rfl | ⟨us, u, rfl⟩
  · cases h
    have : es = [] := chain_only he (show Chain (Complete F []) 0 [] 0 from rfl) hq (by simp)
    subst this; exact .nil
  rw [List.concat_eq_append] at *
  rw [List.dropLast_concat] at hd
  obtain ⟨fs, g1, g2, _⟩ := laid_last (rest := []) h (by simp) hs h36 hd hb
  rw [chain_only he g1 hq (by omega)]
  exact g2

theorem filed_last {F : FloatText} {us : List ForeignHdu} {es : List Entry} (h : List.Forall₂ (fun u (e : Entry) => Shows F u e.hdu ∧ FiledAs u e.name) us es) {i : Nat} {u : ForeignHdu}
    {name : Str} (hi : us[i]? = some u) (hn : FiledAs u name) (hl : ∀ j v, i < j → us[j]? = some v → ¬ FiledAs v name) :
    ∃ e, es[i]? = some e ∧ Shows F u e.hdu ∧ LastOf (es.map (·.name)) name i := by
  rw [List.forall₂_iff_get] at h
  obtain ⟨hlen, h⟩ := h
  obtain ⟨hi', rfl⟩ := List.getElem?_eq_some_iff.1 hi
  have k := h i hi' (hlen ▸ hi')
  refine ⟨es[i], List.getElem?_eq_getElem _, k.1, ?_, ?_⟩
  · rw [List.getElem?_map, List.getElem?_eq_getElem (hlen ▸ hi'), Option.map_some]
    exact congrArg some (filedAs_fun F k.2 hn)
  · intro j hj hc
    rw [List.getElem?_map, Option.map_eq_some_iff] at hc
    obtain ⟨e, hc, rfl⟩ := hc
    obtain ⟨hj', rfl⟩ := List.getElem?_eq_some_iff.1 hc
    exact hl j us[j] hj (List.getElem?_eq_getElem _) (h j (hlen ▸ hj') hj').2

theorem filed_mem {F : FloatText} {us : List ForeignHdu} {es : List Entry} (h : List.Forall₂ (fun u (e : Entry) => Shows F u e.hdu ∧ FiledAs u e.name) us es) (name : Str) :
    name ∈ es.map (·.name) ↔ ∃ u ∈ us, FiledAs u name := by
  induction h with
  | nil => simp
  | @cons u e us es h _ ih =>
    rw [List.map_cons, List.mem_cons, ih, List.exists_mem_cons_iff]
    refine or_congr_left ⟨?_, fun k => filedAs_fun F k h.2⟩
    rintro rfl; exact h.2

/-- **C154** Asked for a name, the reader of another program's file gives the last HDU whose XTENSION card says this name (or that has no such card, for `primary_hdu`); every other
name is out of range, whether it is the EXTNAME of an HDU or not. -/
theorem C154_names (F : FloatText) (content : Str) (us : List ForeignHdu) (h : Laid us content) (hs : ∀ u ∈ us, Supported F u)
    (h36 : ∀ u ∈ us, ¬ 36 ∣ u.cards.length) (hd : ∀ u ∈ us.dropLast, u.data = [] ∨ ¬ 2880 ∣ u.data.length) (hb : content.length + 5760 < 2 ^ 63)
    (fuel n : Nat) (r : Reader) (e : readEntire F fuel n (openFile content) = some (.ok r)) (name : Str) :
    (∀ (i : Nat) u, us[i]? = some u → FiledAs u name → (∀ (j : Nat) v, i < j → us[j]? = some v → ¬ FiledAs v name) → ∃ x, r.byName name = .ok x ∧ Shows F u x) ∧
      ((∀ u ∈ us, ¬ FiledAs u name) → r.byName name = .error .outOfRange) := by
  obtain ⟨es, h1, _, h2⟩ := C33_name F content hb fuel n r e
  have k := laid_entries h hs h36 hd hb h1
  refine ⟨fun i u hi hn hl => ?_, fun hu => (h2 name).2 fun hm => ?_⟩
  · obtain ⟨x, g1, g2, g3⟩ := filed_last k hi hn hl
    exact ⟨_, (h2 name).1 i x g1 g3, g2⟩
  · obtain ⟨u, hu', hn⟩ := (filed_mem k name).1 hm
    exact hu u hu' hn

theorem byName_without {r r' : Reader} (hi : r'.infos = r.infos) (hw : List.Forall₂ WithoutData r.hdus r'.hdus) (name : Str) :
    (∀ x, r.byName name = .ok x → ∃ y, r'.byName name = .ok y ∧ WithoutData x y) ∧ (r.byName name = .error .outOfRange → r'.byName name = .error .outOfRange) := by
  unfold Reader.byName
  rw [hi]
  cases r.infos.find? (fun p => p.1 == name) with
  | none => exact ⟨fun _ h => (by cases h), fun _ => rfl⟩
  | some p =>
    rw [List.forall₂_iff_get] at hw
    obtain ⟨hl, hw⟩ := hw
    simp only
    by_cases hp : p.2.index < r.hdus.length
    · rw [List.getElem?_eq_getElem hp, List.getElem?_eq_getElem (hl ▸ hp)]
      exact ⟨fun x h => ⟨_, rfl, Except.ok.inj h ▸ hw _ hp (hl ▸ hp)⟩, fun h => (by cases h)⟩
    · rw [List.getElem?_eq_none (by omega)]
      exact ⟨fun _ h => (by cases h), fun h => (by cases h)⟩

/-- **C154** total_hdus() of another program's file is the number of kinds of HDUs in it, not the number of HDUs. -/
theorem C154_total (F : FloatText) (content : Str) (us : List ForeignHdu) (h : Laid us content) (hs : ∀ u ∈ us, Supported F u)
    (h36 : ∀ u ∈ us, ¬ 36 ∣ u.cards.length) (hd : ∀ u ∈ us.dropLast, u.data = [] ∨ ¬ 2880 ∣ u.data.length) (hb : content.length + 5760 < 2 ^ 63)
    (fuel n : Nat) (r : Reader) (e : readEntire F fuel n (openFile content) = some (.ok r)) (names : List Str) (hn : names.Nodup)
    (hm : ∀ a, a ∈ names ↔ ∃ u ∈ us, FiledAs u a) : r.totalHdus = names.length ∧ r.hdus.length = us.length := by
  obtain ⟨es, h1, h2, h3, _⟩ := C33_total F content hb fuel n r e
  have k := laid_entries h hs h36 hd hb h1
  refine ⟨?_, by rw [h2, List.length_map, k.length_eq]⟩
  rw [h3]
  apply List.Perm.length_eq
  rw [List.perm_ext_iff_of_nodup (List.nodup_dedup _) hn]
  intro a
  rw [List.mem_dedup, filed_mem k, hm]

/-- **C154** Reading only the headers finds the same HDUs under the same names, without their pixels and cells. -/
theorem C154_headers (F : FloatText) (content : Str) (us : List ForeignHdu) (h : Laid us content) (hs : ∀ u ∈ us, Supported F u)
    (h36 : ∀ u ∈ us, ¬ 36 ∣ u.cards.length) (hd : ∀ u ∈ us.dropLast, u.data = [] ∨ ¬ 2880 ∣ u.data.length) (hb : content.length + 5760 < 2 ^ 63) :
    ∃ N r, (∀ fuel n, N ≤ fuel → N ≤ n → readHeaders F fuel n (openFile content) = some (.ok r)) ∧
      List.Forall₂ (fun u y => ∃ x, Shows F u x ∧ WithoutData x y) us r.hdus ∧
      ∀ name, (∀ (i : Nat) u, us[i]? = some u → FiledAs u name → (∀ (j : Nat) v, i < j → us[j]? = some v → ¬ FiledAs v name) →
          ∃ x y, r.byName name = .ok y ∧ Shows F u x ∧ WithoutData x y) ∧
        ((∀ u ∈ us, ¬ FiledAs u name) → r.byName name = .error .outOfRange) := by
  obtain ⟨es, g1, g2⟩ : ∃ es, FileOf F content es ∧ List.Forall₂ (fun u (e : Entry) => Shows F u e.hdu ∧ FiledAs u e.name) us es := by
    obtain ⟨xs, hx, _⟩ := C151_opened F content us h hs h36 hd hb
    rcases (C134_entire F _ hb _).1 hx with ⟨fs, hf, _⟩ | ⟨_, _, _, _, hbr⟩
    · exact ⟨fs, hf, laid_entries h hs h36 hd hb hf⟩
    · cases hbr
  obtain ⟨M, r, h1, h2⟩ := C31_open_total F content hb es g1
  have e := h1 M M le_rfl le_rfl
  obtain ⟨N, r', k1, k2, k3⟩ := C77_same_layout F content hb M M r e
  refine ⟨N, r', k1, ?_, fun name => ?_⟩
  · rw [h2] at k3
    rw [List.forall₂_iff_get] at k3 ⊢
    have g2 := List.forall₂_iff_get.1 (shown g2)
    exact ⟨g2.1.trans k3.1, fun i a b => ⟨_, g2.2 i a (g2.1 ▸ a), k3.2 i (g2.1 ▸ a) b⟩⟩
  · obtain ⟨n1, n2⟩ := C154_names F content us h hs h36 hd hb M M r e name
    obtain ⟨w1, w2⟩ := byName_without k2 k3 name
    refine ⟨fun i u hi hn hl => ?_, fun hu => w2 (n2 hu)⟩
    obtain ⟨x, hx, hsx⟩ := n1 i u hi hn hl
    obtain ⟨y, hy, hw⟩ := w1 x hx
    exact ⟨x, y, hy, hsx, hw⟩

/-- A primary HDU without data and two tables, both of the name STARS: asked for STARS the reader finds nothing, asked for BINTABLE it gives the second one, and it says that
there are two HDUs. -/
example (F : FloatText) (fuel n : Nat) (r : Reader) (e : readEntire F fuel n (openFile
      (exNoImage.flatten ++ List.replicate 2480 32 ++ [] ++ [] ++ (exStars.flatten ++ List.replicate 1840 32 ++ b!"0001AB0002CD" ++ List.replicate 2868 0 ++
        (exStars.flatten ++ List.replicate 1840 32 ++ b!"0003EF0004GH" ++ List.replicate 2868 0 ++ [])))) = some (.ok r)) :
    r.byName b!"STARS" = .error .outOfRange ∧ (∃ x, r.byName b!"BINTABLE" = .ok x ∧ Shows F ⟨exStars, b!"0003EF0004GH"⟩ x) ∧ r.totalHdus = 2 ∧ r.hdus.length = 3 := by
  have hf : exNoImage.flatten.length = 400 := by decide +kernel
  have hg : exStars.flatten.length = 1040 := by decide +kernel
  have hl : Laid [⟨exNoImage, []⟩, ⟨exStars, b!"0001AB0002CD"⟩, ⟨exStars, b!"0003EF0004GH"⟩] _ :=
    .cons (fill := List.replicate 2480 32) (tail := []) (by rw [List.length_replicate]; rfl) rfl
      (.cons (fill := List.replicate 1840 32) (tail := List.replicate 2868 0) (by rw [List.length_replicate]; rfl) (by rw [List.length_replicate]; rfl)
        (.cons (fill := List.replicate 1840 32) (tail := List.replicate 2868 0) (by rw [List.length_replicate]; rfl) (by rw [List.length_replicate]; rfl) .nil))
  have all : ∀ {P : ForeignHdu → Prop}, P ⟨exNoImage, []⟩ → P ⟨exStars, b!"0001AB0002CD"⟩ → P ⟨exStars, b!"0003EF0004GH"⟩ →
      ∀ u ∈ [(⟨exNoImage, []⟩ : ForeignHdu), ⟨exStars, b!"0001AB0002CD"⟩, ⟨exStars, b!"0003EF0004GH"⟩], P u := by
    intro P a b c u hu
    rcases List.mem_cons.1 hu with rfl | hu
    · exact a
    · rcases List.mem_cons.1 hu with rfl | hu
      · exact b
      · rw [List.mem_singleton.1 hu]; exact c
  have hs := all (exNoImage_supported F) (exStars_supported F _ rfl) (exStars_supported F _ rfl)
  have h36 := all (P := fun u => ¬ 36 ∣ u.cards.length) (by decide) (by decide) (by decide)
  have hd : ∀ u ∈ [(⟨exNoImage, []⟩ : ForeignHdu), ⟨exStars, b!"0001AB0002CD"⟩], u.data = [] ∨ ¬ 2880 ∣ u.data.length := by
    intro u hu; rcases List.mem_cons.1 hu with rfl | hu
    · exact .inl rfl
    · rw [List.mem_singleton.1 hu]; exact .inr (by decide)
  have hb : (exNoImage.flatten ++ List.replicate 2480 32 ++ [] ++ [] ++ (exStars.flatten ++ List.replicate 1840 32 ++ b!"0001AB0002CD" ++ List.replicate 2868 0 ++
        (exStars.flatten ++ List.replicate 1840 32 ++ b!"0003EF0004GH" ++ List.replicate 2868 0 ++ []))).length + 5760 < 2 ^ 63 := by
    simp only [List.length_append, hf, hg, List.length_replicate]; decide
  have f1 : ∀ {d}, FiledAs ⟨exNoImage, d⟩ b!"primary_hdu" := .primary exNoImage_cards.noXtension
  have f2 : ∀ {d}, FiledAs ⟨exStars, d⟩ b!"BINTABLE" := .extension _ (exStars_binary F).xtension
  obtain ⟨t1, t2⟩ := C154_total F _ _ hl hs h36 hd hb fuel n r e [b!"primary_hdu", b!"BINTABLE"] (by decide) (by
    intro a
    constructor
    · intro h
      rcases List.mem_cons.1 h with rfl | h
      · exact ⟨_, List.mem_cons_self, f1⟩
      · rw [List.mem_singleton.1 h]; exact ⟨_, List.mem_cons_of_mem _ List.mem_cons_self, f2⟩
    · rintro ⟨u, hu, h⟩
      exact all (P := fun u => FiledAs u a → a ∈ [b!"primary_hdu", b!"BINTABLE"])
        (fun h => by rw [filedAs_fun F h f1]; exact List.mem_cons_self) (fun h => by rw [filedAs_fun F h f2]; decide) (fun h => by rw [filedAs_fun F h f2]; decide) u hu h)
  refine ⟨?_, ?_, t1, t2⟩
  · refine (C154_names F _ _ hl hs h36 hd hb fuel n r e _).2 (all (fun h => ?_) (fun h => ?_) (fun h => ?_))
    · exact absurd (filedAs_fun F h f1) (by decide)
    · exact absurd (filedAs_fun F h f2) (by decide)
    · exact absurd (filedAs_fun F h f2) (by decide)
  · refine (C154_names F _ _ hl hs h36 hd hb fuel n r e _).1 2 _ rfl f2 fun j v hj h => ?_
    obtain ⟨h', _⟩ := List.getElem?_eq_some_iff.1 h
    simp only [List.length_cons, List.length_nil] at h'
    omega

end Astro
