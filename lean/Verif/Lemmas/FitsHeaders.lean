import Verif.Lemmas.Fits

/-
Helper lemmas about the headers-only mode.
-/

namespace Astro

open Spec Header

namespace Reader

theorem skipData_listed {h : Header} {content : Str} {d n q : Nat} (h0 : h.dataSize = 0 → n = 0 ∧ q = d)
    (h1 : h.dataSize ≠ 0 → DataBytes h n ∧ NextBoundary ((d + n) % 2 ^ 64) q ∧ q < 2 ^ 63) : skipData h (rd content d) = .ok (rd content q) := by
  unfold skipData
  by_cases hz : h.dataSize = 0
  · obtain ⟨rfl, rfl⟩ := h0 hz
    rw [if_pos hz]
  · rw [if_neg hz]
    obtain ⟨k1, k2, k3⟩ := h1 hz
    rw [dataBytes_iff.2 k1, Stream.tellg_good (rd_good _ _)]
    simp only [bind, Except.bind, pure, Except.pure]
    have hp : (rd content d).pos = d := rfl
    rw [hp, mod64]
    obtain ⟨g1, g2, g3⟩ := k2
    rw [Stream.seekg_good rfl (by omega)]
    have e : ({ rd content d with pos := (d + n) % 2 ^ 64, eof := false } : Stream) = rd content ((d + n) % 2 ^ 64) := rfl
    rw [e]
    unfold Stream.setUnitEnd
    obtain ⟨e', f1, f2⟩ := Stream.findUnitEnd_good (rd_good content ((d + n) % 2 ^ 64)) (by show (d + n) % 2 ^ 64 + 2880 < sizeMod; rw [mod64]; omega)
    rw [f1]
    simp only
    rw [Stream.nextBoundary_unique f2 ⟨g1, g2, g3⟩, Stream.seekg_good rfl k3]
    rfl

theorem headersTurn_listed {F : FloatText} {content : Str} {e : Entry} (hc : Listed F content e) (hb : content.length + 5760 < 2 ^ 63) :
    ∃ N, ∀ fuel, N ≤ fuel → ∀ r : Reader, headersTurn F fuel r (rd content e.loc) =
      some (.ok ⟨rd content e.next, r.hdus ++ [e.hdu], setInfo r.infos e.name ⟨e.loc, e.dataLoc, r.hdus.length⟩⟩) := by
  obtain ⟨f0, s', h0⟩ := hc.header
  refine ⟨f0, fun fuel hf r => ?_⟩
  obtain ⟨g, rfl⟩ := Nat.exists_eq_add_of_le hf
  have h1 := readHeader_mono h0 g
  rw [openRead_at] at h1
  unfold headersTurn
  rw [Stream.tellg_good (rd_good _ _)]
  simp only
  rw [extractHeader_inside h1 hc.cards hc.dataLoc (by omega)]
  simp only
  rw [Stream.tellg_good (rd_good _ _)]
  simp only
  obtain ⟨h1, b1, b2⟩ := hc.built
  rw [store_ok.2 ⟨h1, _, _, b1, b2, rfl⟩]
  simp only
  rw [skipData_listed hc.noData hc.data]
  rfl

theorem skipData_stuck {h : Header} {s s' : Stream} (hs : Stuck s) (e : skipData h s = .ok s') : Stuck s' := by
  unfold skipData at e
  by_cases hz : h.dataSize = 0
  · rw [if_pos hz] at e; cases e; exact hs
  · rw [if_neg hz] at e
    obtain ⟨n, _, e⟩ := bind_ok e
    rw [Stream.tellg_fail hs.1] at e
    cases e
    have : (s.seekg ((sizeMod - 1 + n) % sizeMod)).fail = true := by rw [Stream.seekg_fail hs.1]; exact hs.1
    rw [Stream.setUnitEnd_fail this]
    exact ⟨this, rfl⟩

theorem headersTurn_ok {F : FloatText} {content : Str} {p fuel : Nat} {r r' : Reader} (hp : p < content.length) (hb : content.length + 5760 < 2 ^ 63)
    (e : headersTurn F fuel r (rd content p) = some (.ok r')) :
    Stuck r'.file ∨ ∃ en, Listed F content en ∧ en.loc = p ∧
      r' = ⟨rd content en.next, r.hdus ++ [en.hdu], setInfo r.infos en.name ⟨en.loc, en.dataLoc, r.hdus.length⟩⟩ := by
  unfold headersTurn at e
  rw [Stream.tellg_good (rd_good _ _)] at e
  simp only at e
  cases hx : extractHeader F fuel (rd content p) with
  | none => rw [hx] at e; cases e
  | some x =>
    cases x with
    | error er => rw [hx] at e; cases e
    | ok y =>
      obtain ⟨h, s2⟩ := y
      have hr : ∃ s', readHeader F fuel Header.empty (rd content p) = some (.ok (h, s')) := by
        unfold extractHeader at hx
        cases hr : readHeader F fuel Header.empty (rd content p) with
        | none => rw [hr] at hx; cases hx
        | some z =>
          rw [hr] at hx
          cases z with
          | error er => cases hx
          | ok z => obtain ⟨h', s'⟩ := z; cases hx; exact ⟨s', rfl⟩
      obtain ⟨s', hr⟩ := hr
      rw [hx] at e
      simp only at e
      rcases Nat.lt_or_ge content.length (p + 80 * h.cards.length) with hin | hin
      · left
        obtain ⟨s3, k1, k2⟩ := extractHeader_cut hr hin (by omega)
        rw [hx] at k1; cases k1
        rw [Stream.tellg_fail k2.1] at e
        simp only at e
        split at e
        · cases e
        · split at e
          · cases e
          · cases e
            rename_i hsk
            exact skipData_stuck k2 hsk
      · obtain ⟨d, hd⟩ := nextBoundary_exists (p + 80 * h.cards.length)
        have k1 := extractHeader_inside hr hin hd (by omega)
        rw [hx] at k1; cases k1
        rw [Stream.tellg_good (rd_good _ _)] at e
        simp only at e
        have hposd : (rd content d).pos = d := rfl
        have hposp : (rd content p).pos = p := rfl
        rw [hposd, hposp] at e
        split at e
        · cases e
        · rename_i r1 hst
          obtain ⟨h1, name, hdu, b1, b2, b3⟩ := store_ok.1 hst
          split at e
          · cases e
          · rename_i s4 hsk
            cases e
            by_cases hz : h.dataSize = 0
            · right
              unfold skipData at hsk
              rw [if_pos hz] at hsk
              cases hsk
              exact ⟨⟨p, h, d, 0, d, name, hdu⟩, ⟨⟨fuel, s', hr⟩, hp, hin, hd, fun _ => ⟨rfl, rfl⟩, fun hn => absurd hz hn, h1, b1, b2⟩, rfl, by rw [b3]⟩
            · cases hbytes : dataBytes h with
              | error er =>
                exfalso
                unfold skipData at hsk
                rw [if_neg hz, hbytes] at hsk
                cases hsk
              | ok n =>
                have hn := dataBytes_iff.1 hbytes
                obtain ⟨q, hq⟩ := nextBoundary_exists ((d + n) % 2 ^ 64)
                by_cases hq63 : q < 2 ^ 63
                · right
                  rw [skipData_listed (n := n) (q := q) (fun h => absurd h hz) (fun _ => ⟨hn, hq, hq63⟩)] at hsk
                  cases hsk
                  exact ⟨⟨p, h, d, n, q, name, hdu⟩, ⟨⟨fuel, s', hr⟩, hp, hin, hd, fun h => absurd h hz, fun _ => ⟨hn, hq, hq63⟩, h1, b1, b2⟩, rfl, by rw [b3]⟩
                · left
                  unfold skipData at hsk
                  rw [if_neg hz, hbytes, Stream.tellg_good (rd_good _ _)] at hsk
                  simp only [bind, Except.bind, pure, Except.pure, mod64, hposd, Except.ok.injEq] at hsk
                  obtain ⟨q1, q2, q3⟩ := hq
                  by_cases hs63 : (d + n) % 2 ^ 64 < 2 ^ 63
                  · rw [Stream.seekg_good rfl hs63] at hsk
                    have ee : ({ rd content d with pos := (d + n) % 2 ^ 64, eof := false } : Stream) = rd content ((d + n) % 2 ^ 64) := rfl
                    rw [ee] at hsk
                    unfold Stream.setUnitEnd at hsk
                    obtain ⟨e', f1, f2⟩ := Stream.findUnitEnd_good (rd_good content ((d + n) % 2 ^ 64))
                      (by show (d + n) % 2 ^ 64 + 2880 < sizeMod; rw [mod64]; omega)
                    rw [f1] at hsk
                    simp only at hsk
                    rw [Stream.nextBoundary_unique f2 ⟨q1, q2, q3⟩] at hsk
                    rw [← hsk]
                    unfold Stream.seekg
                    have hgood : ({ rd content ((d + n) % 2 ^ 64) with eof := false } : Stream).good = true := rfl
                    rw [Stream.sentry_good hgood]
                    simp only [rd, Bool.false_eq_true, if_false, if_neg hq63]
                    exact ⟨rfl, rfl⟩
                  · have hf : ((rd content d).seekg ((d + n) % 2 ^ 64)).fail = true := by
                      unfold Stream.seekg
                      have hgood : ({ rd content d with eof := false } : Stream).good = true := rfl
                      rw [Stream.sentry_good hgood]
                      simp only [rd, Bool.false_eq_true, if_false, if_neg hs63]
                    rw [← hsk, Stream.setUnitEnd_fail hf]
                    exact ⟨hf, rfl⟩

theorem readHeaders_chain {F : FloatText} {content : Str} (hb : content.length + 5760 < 2 ^ 63) : ∀ (es : List Entry) (p q : Nat),
    Chain (Listed F content) p es q → ∃ N, ∀ fuel, N ≤ fuel → ∀ (n : Nat) (r : Reader), r.file = rd content p →
      readHeaders F fuel (n + es.length) r = readHeaders F fuel n ⟨rd content q, r.hdus ++ es.map (·.hdu), addInfos r.infos r.hdus.length es⟩ := by
  intro es
  induction es with
  | nil =>
    intro p q h
    have : p = q := h
    subst this
    refine ⟨0, fun fuel _ n r hr => ?_⟩
    simp only [List.length_nil, Nat.add_zero, List.map_nil, List.append_nil, addInfos]
    rw [← hr]
  | cons e es ih =>
    intro p q h
    obtain ⟨h1, h2, h3⟩ := h
    obtain ⟨N1, k1⟩ := headersTurn_listed h2 hb
    obtain ⟨N2, k2⟩ := ih _ _ h3
    refine ⟨max N1 N2, fun fuel hf n r hr => ?_⟩
    rw [List.length_cons, ← Nat.add_assoc]
    conv => lhs; unfold readHeaders
    subst h1
    rw [hr, atEnd_rd_inside h2.start]
    simp only
    rw [k1 fuel (by omega) r]
    simp only
    rw [k2 fuel (by omega) n _ rfl]
    simp only [List.append_assoc, List.map_cons, List.cons_append, List.nil_append, List.length_append, List.length_cons, List.length_nil, addInfos]

theorem readHeaders_end {F : FloatText} {content : Str} {q fuel n : Nat} {r : Reader} (hq : content.length ≤ q) (hr : r.file = rd content q) :
    readHeaders F fuel (n + 1) r = some (.ok { r with file := { rd content q with eof := true } }) := by
  unfold readHeaders
  rw [hr, atEnd_rd_end hq]

theorem readHeaders_ok {F : FloatText} {content : Str} (hb : content.length + 5760 < 2 ^ 63) {fuel : Nat} : ∀ (n p : Nat) (r r' : Reader),
    r.file = rd content p → readHeaders F fuel n r = some (.ok r') →
    ∃ es q, Chain (Listed F content) p es q ∧ content.length ≤ q ∧
      r' = ⟨{ rd content q with eof := true }, r.hdus ++ es.map (·.hdu), addInfos r.infos r.hdus.length es⟩ := by
  intro n
  induction n with
  | zero => intro p r r' _ e; cases e
  | succ n ih =>
    intro p r r' hr e
    rcases Nat.lt_or_ge p content.length with hp | hp
    · unfold readHeaders at e
      rw [hr, atEnd_rd_inside hp] at e
      simp only at e
      cases ht : headersTurn F fuel r (rd content p) with
      | none => rw [ht] at e; cases e
      | some x =>
        rw [ht] at e
        cases x with
        | error er => cases e
        | ok r1 =>
          simp only at e
          rcases headersTurn_ok hp hb ht with hs | ⟨en, k1, k2, k3⟩
          · rw [readHeaders_stuck F fuel n r1 hs] at e; cases e
          · obtain ⟨es, q, g1, g2, g3⟩ := ih en.next r1 r' (by rw [k3]) e
            refine ⟨en :: es, q, ⟨k2, k1, g1⟩, g2, ?_⟩
            rw [g3, k3]
            simp only [List.append_assoc, List.map_cons, List.cons_append, List.nil_append, List.length_append, List.length_cons, List.length_nil, addInfos]
    · rw [readHeaders_end hp hr] at e
      cases e
      refine ⟨[], p, rfl, hp, ?_⟩
      simp [addInfos]

end Reader

end Astro
