"""Write lean/Verif.lean: one import per module under lean/Verif, in path order."""
import pathlib
base = pathlib.Path(__file__).resolve().parent.parent / "lean"
mods = sorted(p.relative_to(base).with_suffix("").as_posix().replace("/", ".") for p in (base / "Verif").rglob("*.lean"))
(base / "Verif.lean").write_text("".join(f"import {m}\n" for m in mods))
