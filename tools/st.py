# usage: st.py C09 proved "note"
import json,sys
p='/verif/tools/status.json'; d=json.load(open(p))
d[sys.argv[1]]={"status":sys.argv[2],"note":sys.argv[3] if len(sys.argv)>3 else ""}
json.dump(d,open(p,'w'),indent=0)
