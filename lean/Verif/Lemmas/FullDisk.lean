import Verif.Model.FullDisk
import Verif.Props.WriteRead
/-
Writing points to a file of limited size.
-/
namespace LibLAS.FullDisk
open LibLAS Spec

theorem overlay_length_ge (b : List Byte) (p : Nat) (bs : List Byte) : b.length ≤ (overlay b p bs).length := by
  rw [overlay_length]; split <;> omega

/-- What `writePoints` does, by the space that is left behind the writing position. -/
theorem writePoints_room (room : Nat) (pts : List (List Byte)) : ∀ (w : Writer), 0 < w.hdr.dataRecordLength →
    w.ofs.fail = false → (∀ p ∈ pts, w.hdr.dataRecordLength ≤ p.length) →
    (pts.length * w.hdr.dataRecordLength ≤ max room w.ofs.buf.length - w.ofs.pos →
      ∃ w', w.writePoints pts = .ok w' ∧ writePoints room w pts = (w', .ok ())) ∧
    (max room w.ofs.buf.length - w.ofs.pos < pts.length * w.hdr.dataRecordLength →
      ∃ w', w'.ofs.fail = true ∧
        w'.ofs.buf = overlay w.ofs.buf w.ofs.pos
          ((cutTo w.hdr.dataRecordLength pts).flatten.take (max room w.ofs.buf.length - w.ofs.pos)) ∧
        writePoints room w pts = (w', if (max room w.ofs.buf.length - w.ofs.pos) / w.hdr.dataRecordLength + 1 < pts.length then
          .throw .runtimeError else .ok ())) := by
  induction pts with
  | nil =>
    intro w h0 hf _
    exact ⟨fun _ => ⟨w, rfl, rfl⟩, fun h => by simp at h⟩
  | cons p pts ih =>
    intro w h0 hf hp
    have hp1 := hp p (by simp)
    have hp2 : ∀ q ∈ pts, w.hdr.dataRecordLength ≤ q.length := fun q hq => hp q (by simp [hq])
    have hne : p ≠ [] := by rintro rfl; simp at hp1; omega
    have hlen : (p.take w.hdr.dataRecordLength).length = w.hdr.dataRecordLength := by simp [hp1]
    have hne2 : p.take w.hdr.dataRecordLength ≠ [] := by
      intro h; rw [h] at hlen; simp at hlen; omega
    have hcut : (cutTo w.hdr.dataRecordLength (p :: pts)).flatten =
        p.take w.hdr.dataRecordLength ++ (cutTo w.hdr.dataRecordLength pts).flatten := by simp [cutTo]
    generalize hL : w.hdr.dataRecordLength = L at *
    have hstep : writePoint room w p = ({ w with ofs := write room w.ofs (p.take L), count := w.count + 1 }, .ok ()) := by
      unfold writePoint
      rw [if_neg hne, if_neg (by simp [hf]), if_neg (by omega), hL]
    by_cases hfit : L ≤ max room w.ofs.buf.length - w.ofs.pos
    · -- the first point fits
      have hwr : write room w.ofs (p.take L) = w.ofs.write (p.take L) := by
        unfold write; rw [if_neg (by simp [hf]), if_pos (by rw [hlen]; exact hfit)]
      have hW : w.ofs.write (p.take L) = ⟨overlay w.ofs.buf w.ofs.pos (p.take L), w.ofs.pos + L, false,
          w.ofs.log ++ [(w.ofs.pos, p.take L)]⟩ := by
        unfold OStream.write; rw [if_neg (by simp [hf]), hlen]; simp [hf]
      have hone : w.writePoint p = .ok { w with ofs := w.ofs.write (p.take L), count := w.count + 1 } := by
        unfold Writer.writePoint
        rw [if_neg hne, if_neg (by simp [hf]), if_neg (by omega), hL]
      have hmax : max room (overlay w.ofs.buf w.ofs.pos (p.take L)).length - (w.ofs.pos + L) =
          max room w.ofs.buf.length - w.ofs.pos - L := by
        rw [overlay_length, if_neg hne2, hlen]; omega
      obtain ⟨i1, i2⟩ := ih { w with ofs := w.ofs.write (p.take L), count := w.count + 1 } (by simpa [hL] using h0)
        (by rw [hW]) (by simpa [hL] using hp2)
      simp only [hL] at i1 i2
      rw [hW] at i1 i2
      simp only [hmax] at i1 i2
      have hm : (p :: pts).length * L = L + pts.length * L := by simp [Nat.add_mul]; omega
      constructor
      · intro h
        obtain ⟨w', e1, e2⟩ := i1 (by omega)
        refine ⟨w', ?_, ?_⟩
        · rw [Writer.writePoints, hone]; simp only [Outcome.bind_ok]; rw [hW]; exact e1
        · rw [writePoints, hstep, hwr, hW]; exact e2
      · intro h
        obtain ⟨w', e1, e2, e3⟩ := i2 (by omega)
        refine ⟨w', e1, ?_, ?_⟩
        · have e4 : (p.take L ++ (cutTo L pts).flatten).take (max room w.ofs.buf.length - w.ofs.pos) =
              p.take L ++ (cutTo L pts).flatten.take (max room w.ofs.buf.length - w.ofs.pos - L) := by
            rw [List.take_append, hlen, List.take_of_length_le (by rw [hlen]; exact hfit)]
          rw [e2, hcut, e4, ← overlay_overlay, hlen]
        · rw [writePoints, hstep, hwr, hW]
          show writePoints room _ pts = _
          rw [e3]
          have hdiv : (max room w.ofs.buf.length - w.ofs.pos) / L = (max room w.ofs.buf.length - w.ofs.pos - L) / L + 1 := by
            conv_lhs => rw [show max room w.ofs.buf.length - w.ofs.pos = (max room w.ofs.buf.length - w.ofs.pos - L) + L by omega]
            exact Nat.add_div_right _ h0
          rw [hdiv, List.length_cons]
          congr 1
          by_cases hc : (max room w.ofs.buf.length - w.ofs.pos - L) / L + 1 < pts.length
          · rw [if_pos hc, if_pos (by omega)]
          · rw [if_neg hc, if_neg (by omega)]
    · -- it does not
      have hlt : max room w.ofs.buf.length - w.ofs.pos < L := by omega
      have hwr : write room w.ofs (p.take L) = { w.ofs with
          buf := overlay w.ofs.buf w.ofs.pos ((p.take L).take (max room w.ofs.buf.length - w.ofs.pos)), fail := true } := by
        unfold write; rw [if_neg (by simp [hf]), if_neg (by rw [hlen]; omega)]
      have hm : (p :: pts).length * L = L + pts.length * L := by simp [Nat.add_mul]; omega
      refine ⟨fun h => by omega, fun _ => ?_⟩
      rw [Nat.div_eq_of_lt hlt]
      have hflat : (cutTo L (p :: pts)).flatten.take (max room w.ofs.buf.length - w.ofs.pos) =
          (p.take L).take (max room w.ofs.buf.length - w.ofs.pos) := by
        rw [hcut, List.take_append_of_le_length (by rw [hlen]; omega)]
      refine ⟨{ w with ofs := write room w.ofs (p.take L), count := w.count + 1 }, by rw [hwr], by rw [hwr, hflat], ?_⟩
      rw [writePoints, hstep]
      cases pts with
      | nil => rfl
      | cons q qs =>
        have hq := hp2 q (by simp)
        have hqn : q ≠ [] := by rintro rfl; simp at hq; omega
        show writePoints room _ (q :: qs) = _
        rw [writePoints]
        have : writePoint room { w with ofs := write room w.ofs (p.take L), count := w.count + 1 } q =
            ({ w with ofs := write room w.ofs (p.take L), count := w.count + 1 }, .throw .runtimeError) := by
          unfold writePoint
          rw [if_neg hqn, if_pos (by rw [hwr])]
        rw [this]
        simp

theorem flatten_take (L : Nat) (h0 : 0 < L) : ∀ (l : List (List Byte)) (_ : ∀ p ∈ l, p.length = L) (n : Nat),
    l.flatten.take n = (l.take (n / L)).flatten ++ ((l[n / L]?.map (·.take (n % L))).getD []) := by
  intro l
  induction l with
  | nil => intro _ n; simp
  | cons p l ih =>
    intro hl n
    have hp := hl p (by simp)
    by_cases h : n < L
    · rw [Nat.div_eq_of_lt h, Nat.mod_eq_of_lt h, List.flatten_cons, List.take_append_of_le_length (by omega)]
      simp
    · have h1 : n / L = (n - L) / L + 1 := by
        conv_lhs => rw [show n = (n - L) + L by omega]
        exact Nat.add_div_right _ h0
      have h2 : n % L = (n - L) % L := by
        conv_lhs => rw [show n = (n - L) + L by omega]
        exact Nat.add_mod_right _ _
      rw [h1, h2, List.flatten_cons, List.take_append, hp, List.take_of_length_le (by omega), ih (fun q hq => hl q (by simp [hq]))]
      simp

end LibLAS.FullDisk
