import Verif.Proof.Media
import Verif.Props.Image
/-! # C106: the images of a folder -/
namespace Telefacts
open Telefacts.Media Telefacts.Image

/-- The texts that stand for some bytes: there is one, and it stands for no others. -/
theorem C106_base64 (b : Bytes) : (∃ s, Base64 s b) ∧ (∀ s s', Base64 s b → Base64 s' b → s = s') ∧
    ∀ s b', Base64 s b → Base64 s b' → b = b' :=
  ⟨⟨_, encode_decodes b⟩, fun s s' h h' => ((base64_iff s b).1 h).trans ((base64_iff s' b).1 h').symm,
    fun _ _ h h' => base64_inj h h'⟩

/-- The images of a folder are exactly its JPEG and PNG files, under their names, as data URLs for their bytes. -/
theorem C106_images (es : List Entry) (h : (es.map Entry.name).Nodup) (n url : String) :
    mapGet (processImages (some es)) n = some url ↔ ∃ e ∈ es, e.name = n ∧ Shows e url := by
  unfold processImages
  rw [foldl_get es [] h]
  simp [mapGet]

/-- An `img` element whose source names an image file of the folder shows the bytes of that file, and no
other source is changed. -/
theorem C106_shown (es : List Entry) (h : (es.map Entry.name).Nodup) (root : Node) (p : List Nat) (m : Node)
    (hp : At root p m) :
    ∃ m', At (replace (processImages (some es)) root) p m' ∧ m'.data = m.data ∧
      ∀ (i : Nat) (a : HAttr), m.attrs[i]? = some a → ∃ a', m'.attrs[i]? = some a' ∧
        ((m.elem = true ∧ m.data = "img" ∧ a.key = "src" ∧ ∃ b, BaseName a.val b ∧
            ∃ e ∈ es, e.name = b ∧ Shows e a'.val) ∨
          (a' = a ∧ ¬ (m.elem = true ∧ m.data = "img" ∧ a.key = "src" ∧ ∃ b, BaseName a.val b ∧
            ∃ e ∈ es, e.name = b ∧ ∃ u, Shows e u))) := by
  obtain ⟨m', hm', hi⟩ := (C18_only_image_sources (processImages (some es)) root).1 p m hp
  refine ⟨m', hm', hi.2.2.1, fun i a ha => ?_⟩
  obtain ⟨a', ha', hns, hk, hyes, hno⟩ := hi.2.2.2.2.2 i a ha
  refine ⟨a', ha', ?_⟩
  by_cases hx : ∃ d, Known (processImages (some es)) m a d
  · obtain ⟨d, hd⟩ := hx
    obtain ⟨h1, h2, h3, b, h4, h5⟩ := hd
    refine .inl ⟨h1, h2, h3, b, h4, ?_⟩
    rw [hyes d ⟨h1, h2, h3, b, h4, h5⟩]
    exact (C106_images es h b d).1 h5
  · refine .inr ⟨?_, ?_⟩
    · have := hno hx
      cases a; cases a'; simp_all
    · rintro ⟨h1, h2, h3, b, h4, e, he, hb, u, hu⟩
      exact hx ⟨u, h1, h2, h3, b, h4, (C106_images es h b u).2 ⟨e, he, hb, hu⟩⟩

def mediaFiles : List Entry :=
  [⟨"a.png", false, some [0x89, 0x50, 0x4E, 0x47, 0x0D, 0x0A, 0x1A, 0x0A]⟩, ⟨"b.txt", false, some [0x41]⟩,
    ⟨"c.jpg", false, some [0xFF, 0xD8, 0xFF, 0xE0]⟩, ⟨"d.png", false, none⟩, ⟨"e.png", true, none⟩]

example : (mediaFiles.map Entry.name).Nodup ∧
    processImages (some mediaFiles) = [("a.png", "data:image/png;base64,iVBORw0KGgo="), ("c.jpg", "data:image/jpeg;base64,/9j/4A==")] := by
  decide +kernel

end Telefacts
